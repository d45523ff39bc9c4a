import Verif.Model.Ceemdan
import Verif.Model.Jit

/-!
# Constructors and their keyword arguments

The other model files start from a configuration record.  Here are the constructors that make it from keyword arguments:
`EMD.__init__` (/repo/PyEMD/EMD.py:61-117), `EEMD.__init__` (/repo/PyEMD/EEMD.py:83-108), `CEEMDAN.__init__`
(/repo/PyEMD/CEEMDAN.py:116-146) and the configuration dictionary of `JitEMD`
(/repo/PyEMD/experimental/jitemd.py:38-60, 67-78, 810-815).

Simplifications.  The attribute `DTYPE` is left out: `emd` assigns it (/repo/PyEMD/EMD.py:807) before reading it.  `int(x)` of a
float that is not finite is not modelled.  The range of a seed is not checked, as in `noiseSeed`.  A `spline_kind` or
`noise_kind` that is not a string counts as an unknown string; a number of processes that is no positive integer counts as zero.
-/

namespace PyEMD

/-- A Python object given as a keyword argument; `other` stands for anything `float`, `int` refuse.
/repo/PyEMD/EMD.py:93-113, /repo/PyEMD/EEMD.py:87-92, /repo/PyEMD/CEEMDAN.py:120-130. -/
inductive Value (α : Type) where
  | none
  | bool (b : Bool)
  | int (z : Int)
  | num (x : α)
  | str (s : String)
  | other
  deriving DecidableEq

/-- `**kwargs`: names and values; Python guarantees that the names are distinct.  /repo/PyEMD/EMD.py:61. -/
abbrev Kwargs (α : Type) := List (String × Value α)

/-- Python's own functions on strings: `float(s)`, `int(s)` (`none` is `ValueError`), `s.lower()`.
/repo/PyEMD/EMD.py:93-113, 476. -/
structure PyStr (α : Type) where
  floatOf : String → Option α
  intOf : String → Option Int
  lower : String → String

namespace Init

variable {α ρ : Type} [Add α] [Sub α] [Mul α] [Div α] [Neg α] [LT α] [LE α] [BEq α]
  [DecidableLT α] [DecidableLE α] [NpScalar α]

/-- `kwargs.get(name, default)`.  /repo/PyEMD/EMD.py:93-113. -/
def get (kw : Kwargs α) (name : String) (dflt : Value α) : Value α := (kw.lookup name).getD dflt

/-- `float(v)`.  /repo/PyEMD/EMD.py:93-100. -/
def pyFloat (py : PyStr α) : Value α → PyM α
  | .none => .error .typeError
  | .bool b => .ok (if b then lit 1 else lit 0)
  | .int z => .ok (lit z)
  | .num x => .ok x
  | .str s => match py.floatOf s with
    | some x => .ok x
    | none => .error .valueError
  | .other => .error .typeError

/-- `int(v)`.  /repo/PyEMD/EMD.py:99, 110-113. -/
def pyInt (py : PyStr α) : Value α → PyM Int
  | .none => .error .typeError
  | .bool b => .ok (if b then 1 else 0)
  | .int z => .ok z
  | .num x => .ok (toInt x)
  | .str s => match py.intOf s with
    | some z => .ok z
    | none => .error .valueError
  | .other => .error .typeError

/-- `bool(v)`.  /repo/PyEMD/EEMD.py:87, /repo/PyEMD/CEEMDAN.py:124. -/
def pyBool : Value α → Bool
  | .none => false
  | .bool b => b
  | .int z => z != 0
  | .num x => !(x == lit 0)
  | .str s => s != ""
  | .other => true

/-- The interpolation that a value of `spline_kind` selects.  /repo/PyEMD/EMD.py:476-498. -/
def splineKind (py : PyStr α) : Value α → EMD.SplineKind
  | .str s =>
    let kind := py.lower s
    if kind = "akima" then .akima
    else if kind = "cubic" then .cubic
    else if kind = "pchip" then .pchip
    else if kind = "cubic_hermite" then .cubicHermite
    else if kind = "slinear" then .slinear
    else if kind = "quadratic" then .quadratic
    else if kind = "linear" then .linear
    else .unknown
  | _ => .unknown

/-- The mode that a value of `extrema_detection` selects.  /repo/PyEMD/EMD.py:103-107. -/
def detection : Value α → EMD.Detection
  | .str s => if s = "simple" then .simple else if s = "parabol" then .parabol else .unknown
  | _ => .unknown

/-- The noise that a value of `noise_kind` selects.  /repo/PyEMD/EEMD.py:90, 139-148, /repo/PyEMD/CEEMDAN.py:126, 182-192. -/
def noiseKind : Value α → EEMD.NoiseKind
  | .str s => if s = "normal" then .normal else if s = "uniform" then .uniform else .unknown
  | _ => .unknown

/-- `EMD(**kwargs)`: the named parameters `spline_kind`, `nbsym` are taken from the same keywords.  /repo/PyEMD/EMD.py:61-117.
`scale_factor` is converted but never read. -/
def emd (py : PyStr α) (kw : Kwargs α) : PyM (EMD.Obj α) := do
  let energyRatioThr ← pyFloat py (get kw "energy_ratio_thr" (.num (lit (1 / 5))))
  let stdThr ← pyFloat py (get kw "std_thr" (.num (lit (1 / 5))))
  let svarThr ← pyFloat py (get kw "svar_thr" (.num (lit (1 / 1000))))
  let totalPowerThr ← pyFloat py (get kw "total_power_thr" (.num (lit (5 / 1000))))
  let rangeThr ← pyFloat py (get kw "range_thr" (.num (lit (1 / 1000))))
  let nbsym ← pyInt py (get kw "nbsym" (.int 2))
  let _ ← pyFloat py (get kw "scale_factor" (.num (lit 1)))
  let detection := detection (get kw "extrema_detection" (.str "simple"))
  if detection = .unknown then .error .assertionError
  else
    let FIXE ← pyInt py (get kw "FIXE" (.int 0))
    let FIXE_H ← pyInt py (get kw "FIXE_H" (.int 0))
    let MAX_ITERATION ← pyInt py (get kw "MAX_ITERATION" (.int 1000))
    let splineKind := splineKind py (get kw "spline_kind" (.str "cubic"))
    .ok { cfg := { energyRatioThr, stdThr, svarThr, totalPowerThr, rangeThr, nbsym, splineKind, detection, FIXE, FIXE_H,
                   MAX_ITERATION }
          imfs := none
          residue := none }

/-- `self.processes`; `cpus` is `os.cpu_count()`.  /repo/PyEMD/EEMD.py:92-97, /repo/PyEMD/CEEMDAN.py:130-135.  Without
`parallel` it is not read. -/
def processes (cpus : Nat) (parallel : Bool) : Value α → Nat
  | .none => if parallel then cpus else 0
  | .int z => z.toNat
  | .bool b => if b then 1 else 0
  | _ => 0

/-- `EEMD(trials, noise_width, ext_EMD, parallel, **kwargs)`; `fresh` is the state of `RandomState()`, taken from the operating
system.  /repo/PyEMD/EEMD.py:83-108. -/
def eemd (py : PyStr α) (cpus : Nat) (fresh : ρ) (trials : Nat) (noiseWidth : α) (ext : Option (EMD.Obj α)) (parallel : Bool)
    (kw : Kwargs α) : PyM (EEMD.Obj α ρ) := do
  let inner ← match ext with
    | none => emd py kw
    | some e => .ok e
  return { cfg := { trials, noiseWidth, separateTrends := pyBool (get kw "separate_trends" (.bool false)),
                    noiseKind := noiseKind (get kw "noise_kind" (.str "normal")), parallel,
                    processes := processes cpus parallel (get kw "processes" .none) }
           random := fresh
           emd := inner
           E_IMF := none
           residue := none
           allImfs := [] }

/-- `RandomState(seed=v)`.  /repo/PyEMD/CEEMDAN.py:125. -/
def randomState (rng : Rng α ρ) (fresh : ρ) : Value α → PyM ρ
  | .none => .ok fresh
  | .int z => .ok (rng.seed z)
  | .bool b => .ok (rng.seed (if b then 1 else 0))
  | _ => .error .typeError

/-- `CEEMDAN(trials, epsilon, ext_EMD, parallel, **kwargs)`.  /repo/PyEMD/CEEMDAN.py:116-146.  A negative `max_imf` gives an
empty `range` (327), here zero. -/
def ceemdan (py : PyStr α) (rng : Rng α ρ) (cpus : Nat) (fresh : ρ) (trials : Nat) (epsilon : α) (ext : Option (EMD.Cfg α))
    (parallel : Bool) (kw : Kwargs α) : PyM (CEEMDAN.Obj α ρ) := do
  let noiseScale ← pyFloat py (get kw "noise_scale" (.num (lit 1)))
  let rangeThr ← pyFloat py (get kw "range_thr" (.num (lit (1 / 100))))
  let totalPowerThr ← pyFloat py (get kw "total_power_thr" (.num (lit (5 / 100))))
  let random ← randomState rng fresh (get kw "seed" .none)
  let maxImf ← pyInt py (get kw "max_imf" (.int 100))
  let inner ← match ext with
    | none => (emd py kw).map (fun e => e.cfg)
    | some e => .ok e
  return CEEMDAN.Obj.new
    { trials, epsilon, noiseScale, rangeThr, totalPowerThr, betaProgress := pyBool (get kw "beta_progress" (.bool true)),
      noiseKind := noiseKind (get kw "noise_kind" (.str "normal")), maxStages := maxImf.toNat, parallel,
      processes := processes cpus parallel (get kw "processes" .none) }
    inner random

end Init

namespace JitConfig

variable {α : Type} [Add α] [Sub α] [Mul α] [Div α] [Neg α] [LT α] [LE α] [BEq α]
  [DecidableLT α] [DecidableLE α] [NpScalar α]

/-- A dictionary of numbers (`nb.typed.Dict`).  /repo/PyEMD/experimental/jitemd.py:38-41. -/
abbrev Dict (α : Type) := List (String × α)

/-- `d[name] = x`.  /repo/PyEMD/experimental/jitemd.py:42-50. -/
def Dict.set : Dict α → String → α → Dict α
  | [], name, x => [(name, x)]
  | (k, v) :: d, name, x => if k = name then (k, x) :: d else (k, v) :: Dict.set d name x

/-- `default_emd_config`.  /repo/PyEMD/experimental/jitemd.py:42-50. -/
def defaultDict : Dict α :=
  [("nbsym", lit 2), ("energy_ratio_thr", lit (1 / 5)), ("std_thr", lit (1 / 5)), ("svar_thr", lit (1 / 1000)),
   ("total_power_thr", lit (5 / 1000)), ("range_thr", lit (1 / 1000)), ("FIXE", lit 0), ("FIXE_H", lit 0),
   ("MAX_ITERATION", lit 1000)]

/-- A `JitEMD` object: it holds a reference to its dictionary.  /repo/PyEMD/experimental/jitemd.py:54-60. -/
structure Ref where
  config : Nat
  splineKind : EMD.SplineKind
  detection : EMD.Detection

/-- The dictionaries in memory (the first is `default_emd_config`) and the objects made so far.
/repo/PyEMD/experimental/jitemd.py:38-60. -/
structure World (α : Type) where
  dicts : List (Dict α)
  objs : List Ref

/-- The state after `import`.  /repo/PyEMD/experimental/jitemd.py:38-50. -/
def World.start : World α := { dicts := [defaultDict], objs := [] }

/-- What a user does with dictionaries and objects: `d[name] = x`; `c = d.copy()` (the copy gets the next number);
`JitEMD(config, spline_kind, extrema_detection)` (the object gets the next number).
/repo/PyEMD/experimental/jitemd.py:42-60. -/
inductive Op (α : Type) where
  | set (d : Nat) (name : String) (x : α)
  | copy (d : Nat)
  | new (config : Option Nat) (kind : EMD.SplineKind) (detection : EMD.Detection)

/-- `config or default_emd_config`: the reference the object keeps; an empty dictionary is false.
/repo/PyEMD/experimental/jitemd.py:55. -/
def World.pick (w : World α) : Option Nat → Nat
  | none => 0
  | some d => if (w.dicts.getD d []).isEmpty then 0 else d

/-- One operation.  /repo/PyEMD/experimental/jitemd.py:42-60. -/
def World.step (w : World α) : Op α → World α
  | .set d name x => { w with dicts := w.dicts.modify d (fun c => c.set name x) }
  | .copy d => { w with dicts := w.dicts ++ [w.dicts.getD d []] }
  | .new config kind detection => { w with objs := w.objs ++ [⟨w.pick config, kind, detection⟩] }

/-- Several operations.  /repo/PyEMD/experimental/jitemd.py:42-60. -/
def World.run (w : World α) (ops : List (Op α)) : World α := ops.foldl World.step w

/-- `config[name]`; a missing key raises `KeyError`, here `exception`.  /repo/PyEMD/experimental/jitemd.py:810-815. -/
def Dict.read (d : Dict α) (name : String) : PyM α :=
  match d.lookup name with
  | some x => .ok x
  | none => .error (.exception "KeyError")

/-- The configuration `emd` unpacks from the dictionary.  /repo/PyEMD/experimental/jitemd.py:810-815; counts are integers as in
`Model/Jit.lean`. -/
def Dict.cfg (d : Dict α) (kind : EMD.SplineKind) (detection : EMD.Detection) : PyM (EMD.Cfg α) := do
  let MAX_ITERATION ← d.read "MAX_ITERATION"
  let FIXE ← d.read "FIXE"
  let FIXE_H ← d.read "FIXE_H"
  let nbsym ← d.read "nbsym"
  let svarThr ← d.read "svar_thr"
  let stdThr ← d.read "std_thr"
  let energyRatioThr ← d.read "energy_ratio_thr"
  let rangeThr ← d.read "range_thr"
  let totalPowerThr ← d.read "total_power_thr"
  return { energyRatioThr, stdThr, svarThr, totalPowerThr, rangeThr, nbsym := toInt nbsym, splineKind := kind, detection,
           FIXE := toInt FIXE, FIXE_H := toInt FIXE_H, MAX_ITERATION := toInt MAX_ITERATION }

/-- `objs[i].emd(S, T, max_imf)`: the dictionary is read at the time of the call.
/repo/PyEMD/experimental/jitemd.py:67-78, 810-815. -/
def World.emd (fuel : Nat) (sp : SciPy α) (w : World α) (i : Nat) (S T : List α) (maxImf : Int) : PyM (List (List α)) :=
  match w.objs[i]? with
  | none => .error .indexError
  | some o => do
    let cfg ← (w.dicts.getD o.config []).cfg o.splineKind o.detection
    Jit.emd fuel sp cfg S T maxImf

end JitConfig
end PyEMD
