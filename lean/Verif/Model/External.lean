import Verif.Model.Ceemdan
import Verif.Model.Jit

/-!
# `EEMD` and `CEEMDAN` with an object given as `ext_EMD`

`EEMD(ext_EMD=emd)` (/repo/PyEMD/EEMD.py:99-104) and `CEEMDAN(ext_EMD=emd)` (/repo/PyEMD/CEEMDAN.py:139-143) use any object that has a method
`emd(S, T, max_imf=...)` and, for `separate_trends`, `get_imfs_and_trend()`.  The documentation recommends `JitEMD`
(/repo/doc/experimental.rst:63-68, /repo/example/jit_eemd_example.py).  `Model/Eemd.lean` and `Model/Ceemdan.lean` are about the object `EMD`; here the
object is a parameter.

Simplifications: the object can be pickled for the workers of a pool.  A list of arrays of different shapes is refused by `np.array` (`ValueError`, numpy
1.24 and later).
-/

namespace PyEMD

/-- An array with one or with two axes.  (The trend: `EMD` returns one axis, /repo/PyEMD/EMD.py:938-960, `JitEMD` sometimes two,
/repo/PyEMD/experimental/jitemd.py:62-65, 77.) -/
inductive Arr (α : Type) where
  | row (x : List α)
  | block (x : List (List α))
  deriving DecidableEq

/-- What `EEMD` and `CEEMDAN` call on the object `ext_EMD` with state `σ`.  /repo/PyEMD/EEMD.py:241, 251, /repo/PyEMD/CEEMDAN.py:386. -/
structure Ext (α σ : Type) where
  emd : σ → List α → Option (List α) → Int → PyM (List (List α)) × σ
  trend : σ → PyM (List (List α) × Arr α)

namespace Ext

variable {α ρ σ : Type} [Add α] [Sub α] [Mul α] [Div α] [Neg α] [LT α] [LE α] [BEq α]
  [DecidableLT α] [DecidableLE α] [NpScalar α]

/-- An `EMD` object.  /repo/PyEMD/EMD.py:773-920, 938-960. -/
def ofEmd (fuel : Nat) (sp : SciPy α) : Ext α (EMD.Obj α) where
  emd o S T m := o.emd fuel sp S T m
  trend o := match o.getImfsAndTrend with
    | .error e => .error e
    | .ok (imfs, t) => .ok (imfs, .row t)

/-- A `JitEMD` object.  /repo/PyEMD/experimental/jitemd.py:62-78.  The compiled function has one signature, with two arrays
(/repo/PyEMD/experimental/jitemd.py:777-788), so `T=None` is a `TypeError`.  The residue is a slice with two axes (line 77), the trend of the first
branch of `get_imfs_and_trend` is a row (line 64). -/
def ofJit (fuel : Nat) (sp : SciPy α) : Ext α (Jit.Obj α) where
  emd o S T m := match T with
    | some T => o.emd fuel sp S T m
    | none => (.error .typeError, o)
  trend o := match o.imfs, o.residue with
    | some imfs, some residue =>
      if residue.all allclose0 then
        match pyGet imfs (-1) with
        | .error e => .error e
        | .ok last => .ok (pySlice imfs 0 (-1), .row last)
      else .ok (imfs, .block residue)
    | _, _ => .error .typeError

end Ext

namespace EEMD
namespace Extern

variable {α ρ σ : Type} [Add α] [Sub α] [Mul α] [Div α] [Neg α] [LT α] [LE α] [BEq α]
  [DecidableLT α] [DecidableLE α] [NpScalar α]

/-- The attributes of an `EEMD` object.  /repo/PyEMD/EEMD.py:83-108. -/
structure Obj (α ρ σ : Type) where
  cfg : Cfg α
  random : ρ
  emd : σ
  E_IMF : Option (List (Arr α))
  residue : Option (Arr α)
  allImfs : Dict (List (Arr α))

/-- The parts that a trial touches: generator and inner object.  /repo/PyEMD/EEMD.py:232-243. -/
structure TrialState (ρ σ : Type) where
  random : ρ
  emd : σ

/-- `EEMD._trial_update(trial)`.  /repo/PyEMD/EEMD.py:232-243, 245-251. -/
def trialUpdate (rng : Rng α ρ) (X : Ext α σ) (cfg : Cfg α) (job : Job α) (st : TrialState ρ σ) :
    PyM (List (List α) × Option (Arr α)) × TrialState ρ σ :=
  match generateNoise rng cfg.noiseKind st.random job.scale job.S.length with
  | (.error e, r) => (.error e, { st with random := r })
  | (.ok noise, r) =>
    match X.emd st.emd (vadd job.S noise) (some job.T) job.maxImf with
    | (.error e, o) => (.error e, { random := r, emd := o })
    | (.ok imfs, o) =>
      if cfg.separateTrends then
        match X.trend o with
        | .error e => (.error e, { random := r, emd := o })
        | .ok (imfs, trend) => (.ok (imfs, some trend), { random := r, emd := o })
      else (.ok (imfs, none), { random := r, emd := o })

/-- `for imf_num, imf in enumerate(imfs)` from number `i` on.  /repo/PyEMD/EEMD.py:216-217. -/
def addImfs (d : Dict (List (Arr α))) (i : Nat) : List (List α) → Dict (List (Arr α))
  | [] => d
  | imf :: imfs => addImfs (d.append i (.row imf)) (i + 1) imfs

/-- Body of the collecting loop.  /repo/PyEMD/EEMD.py:206-217. -/
def addTrial (d : Dict (List (Arr α))) (r : List (List α) × Option (Arr α)) : Dict (List (Arr α)) :=
  match r.2 with
  | some trend => addImfs (d.append (-1) trend) 0 r.1
  | none => addImfs d 0 r.1

/-- Sequential mode.  /repo/PyEMD/EEMD.py:197-217. -/
def runTrials (rng : Rng α ρ) (X : Ext α σ) (cfg : Cfg α) (job : Job α) :
    Nat → TrialState ρ σ → Dict (List (Arr α)) → PyM Unit × TrialState ρ σ × Dict (List (Arr α))
  | 0, st, d => (.ok (), st, d)
  | n + 1, st, d =>
    match trialUpdate rng X cfg job st with
    | (.error e, st') => (.error e, st', d)
    | (.ok r, st') => runTrials rng X cfg job n st' (addTrial d r)

/-- One chunk in a worker.  /repo/PyEMD/EEMD.py:194-199. -/
def runChunk (rng : Rng α ρ) (X : Ext α σ) (cfg : Cfg α) (job : Job α) :
    Nat → TrialState ρ σ → PyM (List (List (List α) × Option (Arr α)))
  | 0, _ => .ok []
  | n + 1, st =>
    match trialUpdate rng X cfg job st with
    | (.error e, _) => .error e
    | (.ok r, st') =>
      match runChunk rng X cfg job n st' with
      | .error e => .error e
      | .ok rs => .ok (r :: rs)

/-- The rows of arrays that all have one axis. -/
def rowsOf : List (Arr α) → Option (List (List α))
  | [] => some []
  | .row x :: l => (rowsOf l).map (fun r => x :: r)
  | .block _ :: _ => none

/-- The blocks of arrays that all have two axes. -/
def blocksOf : List (Arr α) → Option (List (List (List α)))
  | [] => some []
  | .block x :: l => (blocksOf l).map (fun r => x :: r)
  | .row _ :: _ => none

/-- `np.array(self._all_imfs[imf_num]).mean(axis=0)` for rows of length `n`; arrays of different shapes are refused.  The blocks that occur have one row.
/repo/PyEMD/EEMD.py:224-225, 278. -/
def meanArr (n : Nat) (l : List (Arr α)) : PyM (Arr α) :=
  match rowsOf l with
  | some rows => .ok (.row (meanRows n rows))
  | none =>
    match blocksOf l with
    | some blocks =>
      if blocks.all (fun b => b.length == 1) then .ok (.block [meanRows n blocks.flatten]) else .error .valueError
    | none => .error .valueError

/-- `np.array([...])` of the means: one shape, or `ValueError`.  /repo/PyEMD/EEMD.py:278. -/
def stackArr (l : List (Arr α)) : PyM (List (Arr α)) :=
  match rowsOf l, blocksOf l with
  | none, none => .error .valueError
  | _, _ => .ok l

/-- `S - np.sum(self.E_IMF, axis=0)`.  /repo/PyEMD/EEMD.py:228. -/
def residueArr (S : List α) (E : List (Arr α)) : Arr α :=
  match rowsOf E with
  | some rows => .row (vsub S (sumRows S.length rows))
  | none => .block [vsub S (sumRows S.length ((blocksOf E).getD []).flatten)]

/-- After the trials.  /repo/PyEMD/EEMD.py:219-230. -/
def finish (S : List α) (o : Obj α ρ σ) (d : Dict (List (Arr α))) : PyM (List (Arr α)) × Obj α ρ σ :=
  let d := renameTrend d
  match CEEMDAN.mapE (fun p => meanArr S.length p.2) d with
  | .error e => (.error e, { o with allImfs := d })
  | .ok means =>
    match stackArr means with
    | .error e => (.error e, { o with allImfs := d })
    | .ok E => (.ok E, { o with allImfs := d, E_IMF := some E, residue := some (residueArr S E) })

/-- `EEMD.eemd(S, T, max_imf)`.  /repo/PyEMD/EEMD.py:155-230. -/
def Obj.eemd (rng : Rng α ρ) (X : Ext α σ) (order : List Nat) (o : Obj α ρ σ) (S : List α) (T : Option (List α)) (maxImf : Int) :
    PyM (List (Arr α)) × Obj α ρ σ :=
  match prepare o.cfg S T maxImf with
  | .error e => (.error e, o)
  | .ok job =>
    if o.cfg.parallel then
      let st : TrialState ρ σ := { random := o.random, emd := o.emd }
      let c := chunkSize o.cfg.trials o.cfg.processes
      let results := (chunkLengths o.cfg.trials c).map (fun n => runChunk rng X o.cfg job n st)
      match poolMap results order with
      | .error e => (.error e, o)
      | .ok rs => finish S o (rs.foldl addTrial [])
    else
      match runTrials rng X o.cfg job o.cfg.trials { random := o.random, emd := o.emd } [] with
      | (.error e, st, d) => (.error e, { o with random := st.random, emd := st.emd, allImfs := d })
      | (.ok (), st, d) => finish S { o with random := st.random, emd := st.emd } d

end Extern
end EEMD

namespace CEEMDAN
namespace Extern

variable {α ρ σ : Type} [Add α] [Sub α] [Mul α] [Div α] [Neg α] [LT α] [LE α] [BEq α]
  [DecidableLT α] [DecidableLE α] [NpScalar α]

/-- `[self.emd(noise, max_imf=-1) for noise in self.all_noises]` in the main process, or one chunk of it in a worker: no time array is given.
/repo/PyEMD/CEEMDAN.py:328-334, 380-386. -/
def noiseRows (X : Ext α σ) : σ → List (List α) → PyM (List (List (List α))) × σ
  | s, [] => (.ok [], s)
  | s, x :: xs =>
    match X.emd s x none (-1) with
    | (.error e, s') => (.error e, s')
    | (.ok r, s') =>
      match noiseRows X s' xs with
      | (.error e, s'') => (.error e, s'')
      | (.ok rs, s'') => (.ok (r :: rs), s'')

/-- The start of `CEEMDAN.ceemdan` up to the decomposition of the noise, the first use of the inner object: standard deviation of the signal, noise,
decompositions.  /repo/PyEMD/CEEMDAN.py:219-228, 328-334.  (What follows is in `Model/Ceemdan.lean`.) -/
def decomposed (rng : Rng α ρ) (std : List α → α) (X : Ext α σ) (order : List Nat) (cfg : Cfg α) (random : ρ) (emd : σ) (S : List α) :
    PyM (List (List (List α))) :=
  if std S == lit 0 then .error .nonFinite
  else
    match noises rng cfg random S.length with
    | (.error e, _) => .error e
    | (.ok x, _) =>
      if cfg.parallel then
        EEMD.poolMap ((pieces (EEMD.chunkLengths cfg.trials (EEMD.chunkSize cfg.trials cfg.processes)) x).map (fun chunk => (noiseRows X emd chunk).1)) order
      else (noiseRows X emd x).1

end Extern
end CEEMDAN
end PyEMD
