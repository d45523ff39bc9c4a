import Verif.Model.Extrema

/-!
# Mirroring of extrema over the edges

Transcription of `EMD.prepare_points*`, /repo/PyEMD/EMD.py:165-455.
-/

namespace PyEMD
namespace EMD

variable {α : Type} [Add α] [Sub α] [Mul α] [Div α] [Neg α] [LT α] [LE α] [BEq α]
  [DecidableLT α] [DecidableLE α] [NpScalar α]

/-- Index lists mirrored over one edge and the symmetry point. -/
structure Mirror where
  mx : List Int
  mn : List Int
  sym : Int

/-- Left bound.  /repo/PyEMD/EMD.py:351-370. -/
def leftBound (nbsym : Int) (S : List α) (ind_max ind_min : List Int) : PyM Mirror := do
  let end_max : Int := ind_max.length
  let end_min : Int := ind_min.length
  let max0 ← pyGet ind_max 0
  let min0 ← pyGet ind_min 0
  if max0 < min0 then
    let s0 ← pyGet S 0
    let sm ← pyGet S min0
    if sm < s0 then
      return { mx := (pySlice ind_max 1 (min end_max (nbsym + 1))).reverse
               mn := (pySlice ind_min 0 (min end_min (nbsym + 0))).reverse
               sym := max0 }
    else
      return { mx := (pySlice ind_max 0 (min end_max nbsym)).reverse
               mn := (pySlice ind_min 0 (min end_min (nbsym - 1))).reverse ++ [0]
               sym := 0 }
  else
    let s0 ← pyGet S 0
    let sm ← pyGet S max0
    if s0 < sm then
      return { mx := (pySlice ind_max 0 (min end_max (nbsym + 0))).reverse
               mn := (pySlice ind_min 1 (min end_min (nbsym + 1))).reverse
               sym := min0 }
    else
      return { mx := (pySlice ind_max 0 (min end_max (nbsym - 1))).reverse ++ [0]
               mn := (pySlice ind_min 0 (min end_min nbsym)).reverse
               sym := 0 }

/-- Right bound.  /repo/PyEMD/EMD.py:372-391. -/
def rightBound (nbsym : Int) (S : List α) (ind_max ind_min : List Int) : PyM Mirror := do
  let end_max : Int := ind_max.length
  let end_min : Int := ind_min.length
  let last : Int := (S.length : Int) - 1
  let maxL ← pyGet ind_max (-1)
  let minL ← pyGet ind_min (-1)
  if maxL < minL then
    let sL ← pyGet S (-1)
    let sm ← pyGet S maxL
    if sL < sm then
      return { mx := (pySliceFrom ind_max (max (end_max - nbsym) 0)).reverse
               mn := (pySlice ind_min (max (end_min - nbsym - 1) 0) (-1)).reverse
               sym := minL }
    else
      return { mx := (pySliceFrom ind_max (max (end_max - nbsym + 1) 0) ++ [last]).reverse
               mn := (pySliceFrom ind_min (max (end_min - nbsym) 0)).reverse
               sym := last }
  else
    let sL ← pyGet S (-1)
    let sm ← pyGet S minL
    if sm < sL then
      return { mx := (pySlice ind_max (max (end_max - nbsym - 1) 0) (-1)).reverse
               mn := (pySliceFrom ind_min (max (end_min - nbsym) 0)).reverse
               sym := maxL }
    else
      return { mx := (pySliceFrom ind_max (max (end_max - nbsym) 0)).reverse
               mn := (pySliceFrom ind_min (max (end_min - nbsym + 1) 0) ++ [last]).reverse
               sym := last }

/-- "In case any array missing".  /repo/PyEMD/EMD.py:393-401. -/
def fillMissing (ind_max ind_min : List Int) (m : Mirror) : Mirror :=
  { m with
    mx := if m.mx.isEmpty then ind_max else m.mx
    mn := if m.mn.isEmpty then ind_min else m.mn }

/-- `2 * T[sym] - T[idx]`.  /repo/PyEMD/EMD.py:403-407. -/
def mirrorTimes (T : List α) (sym : Int) (idx : List Int) : PyM (List α) := do
  let ts ← pyGet T sym
  let xs ← pyTake T idx
  return xs.map (fun x => lit 2 * ts - x)

/-- Result of mirroring over one edge: times and indices of the mirrored maxima and minima. -/
structure Mirrored (α : Type) where
  tmx : List α
  tmn : List α
  mx : List Int
  mn : List Int

/-- Left edge, with the second attempt when mirrored points are not outside the time range.
/repo/PyEMD/EMD.py:404-405, 409-421. -/
def leftMirror (nbsym : Int) (T : List α) (ind_max ind_min : List Int) (m : Mirror) : PyM (Mirrored α) := do
  let tmn ← mirrorTimes T m.sym m.mn
  let tmx ← mirrorTimes T m.sym m.mx
  let tmn0 ← pyGet tmn 0
  let T0 ← pyGet T 0
  let tmx0 ← pyGet tmx 0
  if T0 < tmn0 ∨ T0 < tmx0 then
    let end_max : Int := ind_max.length
    let end_min : Int := ind_min.length
    let max0 ← pyGet ind_max 0
    let m : Mirror :=
      if m.sym = max0 then { m with mx := (pySlice ind_max 0 (min end_max nbsym)).reverse }
      else { m with mn := (pySlice ind_min 0 (min end_min nbsym)).reverse }
    if m.sym = 0 then .error (.exception "Left edge BUG")
    else
      let tmn ← mirrorTimes T 0 m.mn
      let tmx ← mirrorTimes T 0 m.mx
      return { tmx, tmn, mx := m.mx, mn := m.mn }
  else return { tmx, tmn, mx := m.mx, mn := m.mn }

/-- Right edge.  /repo/PyEMD/EMD.py:406-407, 423-434. -/
def rightMirror (nbsym : Int) (T : List α) (n : Nat) (ind_max ind_min : List Int) (m : Mirror) :
    PyM (Mirrored α) := do
  let tmn ← mirrorTimes T m.sym m.mn
  let tmx ← mirrorTimes T m.sym m.mx
  let tmnL ← pyGet tmn (-1)
  let TL ← pyGet T (-1)
  let tmxL ← pyGet tmx (-1)
  if tmnL < TL ∨ tmxL < TL then
    let end_max : Int := ind_max.length
    let end_min : Int := ind_min.length
    let maxL ← pyGet ind_max (-1)
    let m : Mirror :=
      if m.sym = maxL then { m with mx := (pySliceFrom ind_max (max (end_max - nbsym) 0)).reverse }
      else { m with mn := (pySliceFrom ind_min (max (end_min - nbsym) 0)).reverse }
    if m.sym = (n : Int) - 1 then .error (.exception "Right edge BUG")
    else
      let tmn ← mirrorTimes T ((n : Int) - 1) m.mn
      let tmx ← mirrorTimes T ((n : Int) - 1) m.mx
      return { tmx, tmn, mx := m.mx, mn := m.mn }
  else return { tmx, tmn, mx := m.mx, mn := m.mn }

/-- Deletion of every knot whose successor has the same position (`np.where(x[1:] == x[:-1])`, `np.delete`).
/repo/PyEMD/EMD.py:449-453. -/
def dropDupKnots : List (α × α) → List (α × α)
  | [] => []
  | [p] => [p]
  | p :: q :: r => if q.1 == p.1 then dropDupKnots (q :: r) else p :: dropDupKnots (q :: r)

/-- `EMD.prepare_points_simple`; knots are (position, value) pairs; first maxima, then minima.
/repo/PyEMD/EMD.py:327-455. -/
def preparePointsSimple (nbsym : Int) (T S : List α) (maxPos minPos : List α) :
    PyM (List (α × α) × List (α × α)) := do
  let ind_min := minPos.map toInt
  let ind_max := maxPos.map toInt
  let l ← leftBound nbsym S ind_max ind_min
  let r ← rightBound nbsym S ind_max ind_min
  let l := fillMissing ind_max ind_min l
  let r := fillMissing ind_max ind_min r
  let l ← leftMirror nbsym T ind_max ind_min l
  let r ← rightMirror nbsym T S.length ind_max ind_min r
  let zlmax ← pyTake S l.mx
  let zlmin ← pyTake S l.mn
  let zrmax ← pyTake S r.mx
  let zrmin ← pyTake S r.mn
  let tcmin ← pyTake T ind_min
  let tcmax ← pyTake T ind_max
  let zcmin ← pyTake S ind_min
  let zcmax ← pyTake S ind_max
  let tmin := l.tmn ++ tcmin ++ r.tmn
  let tmax := l.tmx ++ tcmax ++ r.tmx
  let zmin := zlmin ++ zcmin ++ zrmin
  let zmax := zlmax ++ zcmax ++ zrmax
  return (dropDupKnots (tmax.zip zmax), dropDupKnots (tmin.zip zmin))

/-- Knots added over one edge in parabolic mode: positions and values, for maxima and minima. -/
structure Expand (α : Type) where
  maxPos : List α
  maxVal : List α
  minPos : List α
  minVal : List α

/-- Left bound, parabolic mode.  /repo/PyEMD/EMD.py:229-266.  The `if not ....shape` fallbacks (263-266) never fire:
the shape of a 1-D array is a non-empty tuple. -/
def leftParabol (nbsym : Int) (T S maxPos maxVal minPos minVal : List α) : PyM (Expand α) := do
  let max0 ← pyGet maxPos 0
  let min0 ← pyGet minPos 0
  let d_pos := max0 - min0
  let T0 ← pyGet T 0
  let S0 ← pyGet S 0
  if d_pos < lit 0 then
    let mv ← pyGet minVal 0
    if mv < S0 ∧ max0 - T0 < pyAbs d_pos then
      return { maxPos := (pySlice maxPos 1 (nbsym + 1)).map (fun x => lit 2 * max0 - x)
               minPos := (pySlice minPos 0 nbsym).map (fun x => lit 2 * max0 - x)
               maxVal := pySlice maxVal 1 (nbsym + 1)
               minVal := pySlice minVal 0 nbsym }
    else
      return { maxPos := (pySlice maxPos 0 nbsym).map (fun x => lit 2 * T0 - x)
               minPos := (T0 :: pySlice minPos 0 (nbsym - 1)).map (fun x => lit 2 * T0 - x)
               maxVal := pySlice maxVal 0 nbsym
               minVal := S0 :: pySlice minVal 0 (nbsym - 1) }
  else
    let mv ← pyGet maxVal 0
    if S0 < mv ∧ min0 - T0 < pyAbs d_pos then
      return { maxPos := (pySlice maxPos 0 nbsym).map (fun x => lit 2 * min0 - x)
               minPos := (pySlice minPos 1 (nbsym + 1)).map (fun x => lit 2 * min0 - x)
               maxVal := pySlice maxVal 0 nbsym
               minVal := pySlice minVal 1 (nbsym + 1) }
    else
      return { maxPos := (T0 :: pySlice maxPos 0 (nbsym - 1)).map (fun x => lit 2 * T0 - x)
               minPos := (pySlice minPos 0 nbsym).map (fun x => lit 2 * T0 - x)
               maxVal := S0 :: pySlice maxVal 0 (nbsym - 1)
               minVal := pySlice minVal 0 nbsym }

/-- Right bound, parabolic mode.  /repo/PyEMD/EMD.py:273-317 (dead fallbacks at 314-317 as on the left). -/
def rightParabol (nbsym : Int) (T S maxPos maxVal minPos minVal : List α) : PyM (Expand α) := do
  let end_max : Int := maxPos.length
  let end_min : Int := minPos.length
  let maxL ← pyGet maxPos (-1)
  let minL ← pyGet minPos (-1)
  let d_pos := maxL - minL
  let TL ← pyGet T (-1)
  let SL ← pyGet S (-1)
  if ¬ (lit 0 < d_pos) then
    let mv ← pyGet maxVal (-1)
    if SL < mv ∧ TL - minL < pyAbs d_pos then
      let idx_max := max 0 (end_max - nbsym)
      let idx_min := max 0 (end_min - nbsym - 1)
      return { maxPos := (pySliceFrom maxPos idx_max).map (fun x => lit 2 * minL - x)
               minPos := (pySlice minPos idx_min (-1)).map (fun x => lit 2 * minL - x)
               maxVal := pySliceFrom maxVal idx_max
               minVal := pySlice minVal idx_min (-1) }
    else
      let idx_max := max 0 (end_max - nbsym + 1)
      let idx_min := max 0 (end_min - nbsym)
      return { maxPos := (pySliceFrom maxPos idx_max ++ [TL]).map (fun x => lit 2 * TL - x)
               minPos := (pySliceFrom minPos idx_min).map (fun x => lit 2 * TL - x)
               maxVal := pySliceFrom maxVal idx_max ++ [SL]
               minVal := pySliceFrom minVal idx_min }
  else
    let mv ← pyGet minVal (-1)
    if mv < SL ∧ maxPos.length > 1 ∧ TL - maxL < pyAbs d_pos then
      let idx_max := max 0 (end_max - nbsym - 1)
      let idx_min := max 0 (end_min - nbsym)
      return { maxPos := (pySlice maxPos idx_max (-1)).map (fun x => lit 2 * maxL - x)
               minPos := (pySliceFrom minPos idx_min).map (fun x => lit 2 * maxL - x)
               maxVal := pySlice maxVal idx_max (-1)
               minVal := pySliceFrom minVal idx_min }
    else
      let idx_max := max 0 (end_max - nbsym)
      let idx_min := max 0 (end_min - nbsym + 1)
      return { maxPos := (pySliceFrom maxPos idx_max).map (fun x => lit 2 * TL - x)
               minPos := (pySliceFrom minPos idx_min ++ [TL]).map (fun x => lit 2 * TL - x)
               maxVal := pySliceFrom maxVal idx_max
               minVal := pySliceFrom minVal idx_min ++ [SL] }

/-- `EMD.prepare_points_parabol`; knots as (position, value) pairs; first maxima, then minima.
/repo/PyEMD/EMD.py:209-325. -/
def preparePointsParabol (nbsym : Int) (T S maxPos maxVal minPos minVal : List α) :
    PyM (List (α × α) × List (α × α)) := do
  let l ← leftParabol nbsym T S maxPos maxVal minPos minVal
  let r ← rightParabol nbsym T S maxPos maxVal minPos minVal
  return ((l.maxPos.zip l.maxVal).reverse ++ maxPos.zip maxVal ++ (r.maxPos.zip r.maxVal).reverse,
          (l.minPos.zip l.minVal).reverse ++ minPos.zip minVal ++ (r.minPos.zip r.minVal).reverse)

/-- `EMD.prepare_points`: dispatch.  /repo/PyEMD/EMD.py:165-207. -/
def preparePoints (detection : Detection) (nbsym : Int) (T S : List α) (e : Extrema α) :
    PyM (List (α × α) × List (α × α)) :=
  match detection with
  | .parabol => preparePointsParabol nbsym T S e.maxPos e.maxVal e.minPos e.minVal
  | .simple => preparePointsSimple nbsym T S e.maxPos e.minPos
  | .unknown => .error .valueError

end EMD
end PyEMD
