import Verif.Model.Spline

/-!
# `EMD.emd` and the `EMD` object

Transcription of /repo/PyEMD/EMD.py:61-120, 689-960.
-/

namespace PyEMD
namespace EMD

variable {α : Type} [Add α] [Sub α] [Mul α] [Div α] [Neg α] [LT α] [LE α] [BEq α]
  [DecidableLT α] [DecidableLE α] [NpScalar α]

/-- Configuration attributes read by `emd`.  /repo/PyEMD/EMD.py:93-113.  `DTYPE`, `scale_factor` are not modelled. -/
structure Cfg (α : Type) where
  energyRatioThr : α
  stdThr : α
  svarThr : α
  totalPowerThr : α
  rangeThr : α
  nbsym : Int
  splineKind : SplineKind
  detection : Detection
  FIXE : Int
  FIXE_H : Int
  MAX_ITERATION : Int

/-- Defaults of `EMD()`.  /repo/PyEMD/EMD.py:61, 93-113. -/
def Cfg.default : Cfg α where
  energyRatioThr := lit (1 / 5)
  stdThr := lit (1 / 5)
  svarThr := lit (1 / 1000)
  totalPowerThr := lit (5 / 1000)
  rangeThr := lit (1 / 1000)
  nbsym := 2
  splineKind := .cubic
  detection := .simple
  FIXE := 0
  FIXE_H := 0
  MAX_ITERATION := 1000

/-- `EMD.end_condition(S, IMF)`.  /repo/PyEMD/EMD.py:689-718. -/
def endCondition (cfg : Cfg α) (S : List α) (IMF : List (List α)) : PyM Bool := do
  let tmp := vsub S (sumRows S.length IMF)
  let mx ← npMaxE tmp
  let mn ← npMinE tmp
  if mx - mn < cfg.rangeThr then return true
  else if npSum (tmp.map pyAbs) < cfg.totalPowerThr then return true
  else return false

/-- `EMD.check_imf(imf_new, imf_old, eMax, eMin)`.  /repo/PyEMD/EMD.py:720-761.  Divisions by zero give inf/NaN in
numpy, for which the comparison is `False`; see `divLt` and the explicit test on `imf_new`. -/
def checkImf (cfg : Cfg α) (imfNew imfOld : List α) (eMax eMin : List (α × α)) : PyM Bool := do
  if eMax.any (fun p => decide (p.2 < lit 0)) || eMin.any (fun p => decide (lit 0 < p.2)) then return false
  else if npSum (imfNew.map (fun x => x * x)) < lit (1 / 10000000000) then return false
  else
    let imfDiff := vsub imfNew imfOld
    let imfDiffSqrdSum := npSum (imfDiff.map (fun x => x * x))
    let mx ← pyMax imfOld
    let mn ← pyMin imfOld
    if divLt imfDiffSqrdSum (mx - mn) cfg.svarThr then return true
    else if (!imfNew.any (fun x => x == lit 0)) &&
        decide (npSum ((List.zipWith (fun a b => a / b) imfDiff imfNew).map (fun x => x * x)) < cfg.stdThr) then
      return true
    else if divLt imfDiffSqrdSum (npSum (imfOld.map (fun x => x * x))) cfg.energyRatioThr then return true
    else return false

/-- `EMD._normalize_time(t)`.  /repo/PyEMD/EMD.py:763-771. -/
def normalizeTime (t : List α) : PyM (List α) := do
  let d := npDiff t
  if d.all (fun x => !(x == lit 0)) then
    let t0 ← pyGet t 0
    let m ← npMinE d
    return t.map (fun x => (x - t0) / m)
  else .error .assertionError

/-- `get_timeline(len(S), S.dtype)` as `emd` uses it: 0, 1, ..., n-1; `IndexError` for an empty signal.
/repo/PyEMD/utils.py:12-27; the dtype logic is modelled in `Verif/Model/Utils.lean`. -/
def timeline (n : Nat) : PyM (List α) :=
  if n = 0 then .error .indexError else .ok ((List.range n).map (fun k : Nat => lit (k : ℚ)))

/-- Time array used by the decomposition.  /repo/PyEMD/EMD.py:796-803. -/
def prepareTime (cfg : Cfg α) (S : List α) (T : Option (List α)) : PyM (List α) := do
  match T with
  | some T' =>
    if S.length ≠ T'.length then .error .valueError
    else if cfg.detection = .simple then normalizeTime (← timeline S.length)
    else normalizeTime T'
  | none => normalizeTime (← timeline S.length)

/-- State of the sifting of one IMF: counters `n`, `n_h`, the number of extrema `extNo`, the proto-IMF, and (ghost)
the number of envelope-mean subtractions done.  /repo/PyEMD/EMD.py:826-835. -/
structure Sift (α : Type) where
  n : Int
  nh : Int
  extNo : Int
  imf : List α
  /-- ghost: number of subtractions so far -/
  subs : Nat

/-- Why a sifting ended (ghost information except `trend`, which sets `finished`). -/
inductive SiftEnd
  | maxIter    -- EMD.py:836-838
  | fixe       -- EMD.py:853-855
  | fixeH      -- EMD.py:876-877
  | converged  -- EMD.py:893-894
  | trend      -- EMD.py:896-898
  deriving DecidableEq, Repr

/-- Outcome of one pass through the body of the inner `while True` loop. -/
inductive SiftStep (α : Type)
  | brk (s : Sift α) (why : SiftEnd)
  | cont (s : Sift α)

/-- Number of extrema and number of zero crossings.  /repo/PyEMD/EMD.py:840-843, 860-867, 881-884. -/
def countExt (cfg : Cfg α) (T S : List α) : PyM (Int × Int) := do
  let e ← findExtrema cfg.detection T S
  return ((e.minPos.length : Int) + (e.maxPos.length : Int), (e.indzer.length : Int))

/-- One subtraction of the envelope mean: new proto-IMF and the knots.  /repo/PyEMD/EMD.py:846-850.  The `none` case
(`[-1] * 4`) is unreachable here, see `extractMaxMinSpline_ne_none` in `Verif/Lemmas/EmdLoop.lean`. -/
def siftOnce (sp : SciPy α) (cfg : Cfg α) (T imf : List α) :
    PyM (List α × List (α × α) × List (α × α)) := do
  match ← extractMaxMinSpline sp cfg.detection cfg.splineKind cfg.nbsym T imf with
  | none => .error .typeError
  | some env =>
    let s ← bcast (fun a b => a + b) env.maxEnv env.minEnv
    let mean ← assignAll imf.length (s.map (fun x => lit (1 / 2) * x))
    return (vsub imf mean, env.eMax, env.eMin)

/-- Body of the inner loop.  /repo/PyEMD/EMD.py:835-898.  `if imf_old is np.nan: continue` (886-887) is dead code:
`imf_old` has been assigned at 849. -/
def siftBody (sp : SciPy α) (cfg : Cfg α) (T : List α) (s : Sift α) : PyM (SiftStep α) := do
  let n := s.n + 1
  if cfg.MAX_ITERATION ≤ n then return .brk { s with n } .maxIter
  else
    let (extNo, _) ← countExt cfg T s.imf
    if extNo > 2 then
      let (imf, eMax, eMin) ← siftOnce sp cfg T s.imf
      let subs := s.subs + 1
      if cfg.FIXE ≠ 0 then
        if cfg.FIXE ≤ n then return .brk { s with n, extNo, imf, subs } .fixe
        else return .cont { s with n, extNo, imf, subs }
      else if cfg.FIXE_H ≠ 0 then
        let (extNo, nzm) ← countExt cfg T imf
        if n = 1 then return .cont { s with n, extNo, imf, subs }
        else
          let nh := if |extNo - nzm| < 2 then s.nh + 1 else 0
          if cfg.FIXE_H ≤ nh then return .brk { n, nh, extNo, imf, subs } .fixeH
          else return .cont { n, nh, extNo, imf, subs }
      else
        let (extNo, nzm) ← countExt cfg T imf
        let f1 ← checkImf cfg imf s.imf eMax eMin
        let f2 := decide (|extNo - nzm| < 2)
        if f1 && f2 then return .brk { s with n, extNo, imf, subs } .converged
        else return .cont { s with n, extNo, imf, subs }
    else return .brk { s with n, extNo } .trend

/-- The inner `while True` loop.  /repo/PyEMD/EMD.py:834-898. -/
def siftLoop (sp : SciPy α) (cfg : Cfg α) (T : List α) : Nat → Sift α → PyM (Sift α × SiftEnd)
  | 0, _ => .error .outOfFuel
  | fuel + 1, s => do
    match ← siftBody sp cfg T s with
    | .brk s' why => return (s', why)
    | .cont s' => siftLoop sp cfg T fuel s'

/-- Fuel with which the inner loop never runs out (`siftLoop_terminates`). -/
def siftFuel (cfg : Cfg α) : Nat := cfg.MAX_ITERATION.toNat + 1

/-- What is known about one extracted component: the data, why its sifting ended, ghost counters. -/
structure Round (α : Type) where
  imf : List α
  why : SiftEnd
  subs : Nat
  nh : Int

/-- One round of the outer loop: the sifting of one IMF.  /repo/PyEMD/EMD.py:826-898. -/
def emdRound (sp : SciPy α) (cfg : Cfg α) (T S : List α) (IMF : List (List α)) (extNo : Int) :
    PyM (Sift α × SiftEnd) :=
  let residue := vsub S (sumRows S.length IMF)
  siftLoop sp cfg T (siftFuel cfg) { n := 0, nh := 0, extNo, imf := residue, subs := 0 }

/-- The outer `while not finished` loop; returns the rounds in order and the final `extNo`.
/repo/PyEMD/EMD.py:823-906. -/
def emdLoop (sp : SciPy α) (cfg : Cfg α) (T S : List α) (max_imf : Int) :
    Nat → List (Round α) → Int → PyM (List (Round α) × Int)
  | 0, _, _ => .error .outOfFuel
  | fuel + 1, rounds, extNo => do
    let (s, why) ← emdRound sp cfg T S (rounds.map (·.imf)) extNo
    let rounds := rounds ++ [{ imf := s.imf, why, subs := s.subs, nh := s.nh }]
    let fin ← endCondition cfg S (rounds.map (·.imf))
    if fin || decide ((rounds.length : Int) = max_imf) || why == .trend then return (rounds, s.extNo)
    else emdLoop sp cfg T S max_imf fuel rounds s.extNo

/-- Result of a decomposition: returned rows, stored imfs, stored residue. -/
structure Result (α : Type) where
  rows : List (List α)
  imfs : List (List α)
  residue : List α

/-- After the loop: drop a final trend, compute the residue, append it unless it vanishes.
/repo/PyEMD/EMD.py:908-920. -/
def finish (S : List α) (IMF : List (List α)) (extNo : Int) : Result α :=
  let imfs := if extNo ≤ 2 then IMF.dropLast else IMF
  let residue := vsub S (sumRows S.length imfs)
  { rows := if allclose0 residue then imfs else imfs ++ [residue], imfs, residue }

/-- The rounds of a decomposition (ghost view of `emd`).  /repo/PyEMD/EMD.py:796-906. -/
def emdRounds (fuel : Nat) (sp : SciPy α) (cfg : Cfg α) (S : List α) (T : Option (List α)) (max_imf : Int) :
    PyM (List (Round α) × Int) := do
  let T ← prepareTime cfg S T
  emdLoop sp cfg T S max_imf fuel [] (-1)

/-- `EMD.emd(S, T, max_imf)` without the object.  /repo/PyEMD/EMD.py:773-920. -/
def emdPure (fuel : Nat) (sp : SciPy α) (cfg : Cfg α) (S : List α) (T : Option (List α)) (max_imf : Int) :
    PyM (Result α) := do
  let (rounds, extNo) ← emdRounds fuel sp cfg S T max_imf
  return finish S (rounds.map (·.imf)) extNo

/-- The `EMD` object: configuration and results of the latest successful run.  /repo/PyEMD/EMD.py:93-117. -/
structure Obj (α : Type) where
  cfg : Cfg α
  imfs : Option (List (List α))
  residue : Option (List α)

/-- `EMD.__init__`.  /repo/PyEMD/EMD.py:61-117: the detection mode is asserted. -/
def Obj.new (cfg : Cfg α) : PyM (Obj α) :=
  if cfg.detection = .simple ∨ cfg.detection = .parabol then .ok { cfg, imfs := none, residue := none }
  else .error .assertionError

/-- `EMD.emd` as a method: on success `self.imfs` and `self.residue` are replaced (913-914); on an exception
they keep their values.  /repo/PyEMD/EMD.py:773-920. -/
def Obj.emd (fuel : Nat) (sp : SciPy α) (o : Obj α) (S : List α) (T : Option (List α)) (max_imf : Int) :
    PyM (List (List α)) × Obj α :=
  match emdPure fuel sp o.cfg S T max_imf with
  | .ok r => (.ok r.rows, { o with imfs := some r.imfs, residue := some r.residue })
  | .error e => (.error e, o)

/-- `EMD.get_imfs_and_residue()`.  /repo/PyEMD/EMD.py:922-936. -/
def Obj.getImfsAndResidue (o : Obj α) : PyM (List (List α) × List α) :=
  match o.imfs, o.residue with
  | some i, some r => .ok (i, r)
  | _, _ => .error .valueError

/-- `EMD.get_imfs_and_trend()`.  /repo/PyEMD/EMD.py:938-960. -/
def Obj.getImfsAndTrend (o : Obj α) : PyM (List (List α) × List α) := do
  let (imfs, residue) ← o.getImfsAndResidue
  if allclose0 residue then
    let last ← pyGet imfs (-1)
    return (imfs.dropLast, last)
  else return (imfs, residue)

end EMD
end PyEMD
