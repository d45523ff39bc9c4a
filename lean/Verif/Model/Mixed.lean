import Verif.Model.Emd
import Verif.Model.Ieee

/-!
# `EMD.emd` on signals that are narrower than double precision

`emd` works in the type of the signal (/repo/PyEMD/EMD.py:806-807), but the container of the components is created by `np.empty((imfNo, N))`
(line 820), which is `float64` whatever the signal is.  For `float32` and `float16` signals two formats meet: the proto-IMF, the extrema, the knots and
the stopping rule are narrow; the sums of the components, the test for the end, the residue and everything that is returned is wide.
`Verif/Model/Emd.lean` is the case in which both are the same (`C160_double`).

The envelopes (`spline_points`) are a parameter: scipy returns doubles for narrow knots, `cubic_spline_3pts` mixes both formats.
-/

namespace PyEMD
namespace Mixed
open EMD (Cfg Sift SiftEnd SiftStep Round Result)

/-- Conversions between the narrow and the wide type: numpy's promotion and `astype`/assignment.  /repo/PyEMD/EMD.py:826, 847. -/
structure Formats (α β : Type) where
  up : α → β
  down : β → α

variable {α β : Type} [Add α] [Sub α] [Mul α] [Div α] [Neg α] [LT α] [LE α] [BEq α] [DecidableLT α] [DecidableLE α] [NpScalar α]
variable [Add β] [Sub β] [Mul β] [Div β] [Neg β] [LT β] [LE β] [BEq β] [DecidableLT β] [DecidableLE β] [NpScalar β]

/-- The configuration as the narrow parts see it: thresholds are Python floats, which NumPy 2 converts to the type of the array they are compared with.
/repo/PyEMD/EMD.py:93-113, 737-759. -/
def narrowCfg (P : Formats α β) (cfg : Cfg β) : Cfg α where
  energyRatioThr := P.down cfg.energyRatioThr
  stdThr := P.down cfg.stdThr
  svarThr := P.down cfg.svarThr
  totalPowerThr := P.down cfg.totalPowerThr
  rangeThr := P.down cfg.rangeThr
  nbsym := cfg.nbsym
  splineKind := cfg.splineKind
  detection := cfg.detection
  FIXE := cfg.FIXE
  FIXE_H := cfg.FIXE_H
  MAX_ITERATION := cfg.MAX_ITERATION

/-- The envelopes by scipy for narrow knots: scipy converts knots, values and times to doubles and returns doubles.  /repo/PyEMD/EMD.py:457-498 except for the cubic spline
through three points. -/
def scipyEnv (P : Formats α β) (sp : SciPy β) (kind : EMD.SplineKind) (T : List α) (knots : List (α × α)) : PyM (List β) :=
  (EMD.splinePoints sp kind (T.map P.up) (knots.map (fun p => (P.up p.1, P.up p.2)))).map (·.2)

/-- One subtraction of the envelope mean: `mean[:] = 0.5 * (max_env + min_env)` converts the wide mean to the type of the signal.
/repo/PyEMD/EMD.py:146-163, 846-850.  `env T knots` is the second value of `spline_points(T, knots)`. -/
def siftOnce (P : Formats α β) (env : List α → List (α × α) → PyM (List β)) (cfg : Cfg α) (T imf : List α) :
    PyM (List α × List (α × α) × List (α × α)) := do
  let e ← EMD.findExtrema cfg.detection T imf
  if e.maxPos.length + e.minPos.length < 3 then .error .typeError
  else
    let (eMax, eMin) ← EMD.preparePoints cfg.detection cfg.nbsym T imf e
    let maxEnv ← env T eMax
    let minEnv ← env T eMin
    let s ← bcast (fun a b => a + b) maxEnv minEnv
    let mean ← assignAll imf.length (s.map (fun x => P.down (lit (1 / 2) * x)))
    return (vsub imf mean, eMax, eMin)

/-- Body of the inner loop, `once` being the subtraction of the mean.  /repo/PyEMD/EMD.py:835-898. -/
def siftBody (once : List α → PyM (List α × List (α × α) × List (α × α))) (cfg : Cfg α) (T : List α) (s : Sift α) : PyM (SiftStep α) := do
  let n := s.n + 1
  if cfg.MAX_ITERATION ≤ n then return .brk { s with n } .maxIter
  else
    let (extNo, _) ← EMD.countExt cfg T s.imf
    if extNo > 2 then
      let (imf, eMax, eMin) ← once s.imf
      let subs := s.subs + 1
      if cfg.FIXE ≠ 0 then
        if cfg.FIXE ≤ n then return .brk { s with n, extNo, imf, subs } .fixe
        else return .cont { s with n, extNo, imf, subs }
      else if cfg.FIXE_H ≠ 0 then
        let (extNo, nzm) ← EMD.countExt cfg T imf
        if n = 1 then return .cont { s with n, extNo, imf, subs }
        else
          let nh := if |extNo - nzm| < 2 then s.nh + 1 else 0
          if cfg.FIXE_H ≤ nh then return .brk { n, nh, extNo, imf, subs } .fixeH
          else return .cont { n, nh, extNo, imf, subs }
      else
        let (extNo, nzm) ← EMD.countExt cfg T imf
        let f1 ← EMD.checkImf cfg imf s.imf eMax eMin
        let f2 := decide (|extNo - nzm| < 2)
        if f1 && f2 then return .brk { s with n, extNo, imf, subs } .converged
        else return .cont { s with n, extNo, imf, subs }
    else return .brk { s with n, extNo } .trend

/-- The inner `while True` loop.  /repo/PyEMD/EMD.py:834-898. -/
def siftLoop (once : List α → PyM (List α × List (α × α) × List (α × α))) (cfg : Cfg α) (T : List α) : Nat → Sift α → PyM (Sift α × SiftEnd)
  | 0, _ => .error .outOfFuel
  | fuel + 1, s => do
    match ← siftBody once cfg T s with
    | .brk s' why => return (s', why)
    | .cont s' => siftLoop once cfg T fuel s'

/-- The rows of `IMF`: `np.vstack` converts the narrow components to `float64`.  /repo/PyEMD/EMD.py:820, 901. -/
def container (P : Formats α β) (rounds : List (Round α)) : List (List β) := rounds.map (fun r => r.imf.map P.up)

/-- The outer loop.  /repo/PyEMD/EMD.py:823-906.  `residue[:] = S - np.sum(IMF[:imfNo], axis=0)` computes in the wide type and converts. -/
def emdLoop (P : Formats α β) (env : List α → List (α × α) → PyM (List β)) (cfg : Cfg β) (T S : List α) (max_imf : Int) :
    Nat → List (Round α) → Int → PyM (List (Round α) × Int)
  | 0, _, _ => .error .outOfFuel
  | fuel + 1, rounds, extNo => do
    let residue := (vsub (S.map P.up) (sumRows S.length (container P rounds))).map P.down
    let (s, why) ← siftLoop (siftOnce P env (narrowCfg P cfg) T) (narrowCfg P cfg) T (EMD.siftFuel cfg) { n := 0, nh := 0, extNo, imf := residue, subs := 0 }
    let rounds := rounds ++ [{ imf := s.imf, why, subs := s.subs, nh := s.nh }]
    let fin ← EMD.endCondition cfg (S.map P.up) (container P rounds)
    if fin || decide ((rounds.length : Int) = max_imf) || why == .trend then return (rounds, s.extNo)
    else emdLoop P env cfg T S max_imf fuel rounds s.extNo

/-- `EMD.emd(S, T, max_imf)` for a narrow signal: rows, components and residue are wide.  /repo/PyEMD/EMD.py:773-920. -/
def emd (P : Formats α β) (fuel : Nat) (env : List α → List (α × α) → PyM (List β)) (cfg : Cfg β) (S : List α) (T : Option (List α))
    (max_imf : Int) : PyM (Result β) := do
  let T ← EMD.prepareTime (narrowCfg P cfg) S T
  let (rounds, extNo) ← emdLoop P env cfg T S max_imf fuel [] (-1)
  return EMD.finish (S.map P.up) (container P rounds) extNo

end Mixed

namespace Ieee
variable {f e E f' e' E' : ℕ}

/-- Conversion to another format, rounding to nearest.  /repo/PyEMD/EMD.py:826, 847 (assignment to an array of another type), 901 (`np.vstack`). -/
def cast : Ieee f e E → Ieee f' e' E'
  | nan => nan
  | inf s => inf s
  | num m _ => round (m * 2 ^ e') (2 ^ e) (Nat.two_pow_pos e)

/-- A narrow and a wide format, e.g. `float32` and `float64`.  /repo/PyEMD/EMD.py:807, 820. -/
def formats : Mixed.Formats (Ieee f e E) (Ieee f' e' E') := ⟨cast, cast⟩

end Ieee
end PyEMD
