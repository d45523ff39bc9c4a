import Verif.Model.Emd

/-!
# `EEMD`

Transcription of /repo/PyEMD/EEMD.py:81-282.  The pseudo random generator is a parameter; `multiprocessing.Pool.map` is
modelled from its documented behaviour (CPython `multiprocessing/pool.py`): the work is cut into chunks, every chunk is
sent together with a pickled copy of the bound method's object, results are stored by chunk position.
-/

namespace PyEMD

/-- `np.random.RandomState` as a state machine: `normal(loc=0, scale, size)` and `uniform(low, high, size)` return an
array and the next state; `seed(s)` replaces the state.  Used at /repo/PyEMD/EEMD.py:89, 139-153 and
/repo/PyEMD/CEEMDAN.py:125, 182-197.  No laws. -/
structure Rng (α ρ : Type) where
  normal : ρ → α → Nat → List α × ρ
  uniform : ρ → α → α → Nat → List α × ρ
  seed : Int → ρ

namespace EEMD

variable {α ρ : Type} [Add α] [Sub α] [Mul α] [Div α] [Neg α] [LT α] [LE α] [BEq α]
  [DecidableLT α] [DecidableLE α] [NpScalar α]

/-- Values of the attribute `noise_kind`; `unknown` is any other string.  /repo/PyEMD/EEMD.py:81, 90, 139-148. -/
inductive NoiseKind
  | normal
  | uniform
  | unknown
  deriving DecidableEq, Repr

/-- `EEMD.generate_noise(scale, size)`.  /repo/PyEMD/EEMD.py:119-149; the same code is at /repo/PyEMD/CEEMDAN.py:159-193. -/
def generateNoise (rng : Rng α ρ) (kind : NoiseKind) (r : ρ) (scale : α) (size : Nat) : PyM (List α) × ρ :=
  match kind with
  | .normal => let (x, r') := rng.normal r scale size; (.ok x, r')
  | .uniform => let (x, r') := rng.uniform r (-scale / lit 2) (scale / lit 2) size; (.ok x, r')
  | .unknown => (.error .valueError, r)

/-- Configuration attributes.  /repo/PyEMD/EEMD.py:83-97.  `processes` is the number of worker processes (`None` is
replaced by the number of CPUs at line 94-95); a negative number of trials behaves like none. -/
structure Cfg (α : Type) where
  trials : Nat
  noiseWidth : α
  separateTrends : Bool
  noiseKind : NoiseKind
  parallel : Bool
  processes : Nat

/-- Python dictionary with integer keys in insertion order. -/
abbrev Dict (β : Type) := List (Int × β)

/-- `d[k].append(x)` on a `defaultdict(list)`: an existing key keeps its place, a new key goes to the end.
/repo/PyEMD/EEMD.py:204, 213-217. -/
def Dict.append {β : Type} : Dict (List β) → Int → β → Dict (List β)
  | [], k, x => [(k, [x])]
  | (k', v) :: d, k, x => if k' = k then (k', v ++ [x]) :: d else (k', v) :: Dict.append d k x

/-- The attributes `random`, `EMD`, `E_IMF`, `residue`, `_all_imfs` of an `EEMD` object.  /repo/PyEMD/EEMD.py:83-108;
the property `all_imfs` (/repo/PyEMD/EEMD.py:267-270) is the last of them. -/
structure Obj (α ρ : Type) where
  cfg : Cfg α
  random : ρ
  emd : EMD.Obj α
  E_IMF : Option (List (List α))
  residue : Option (List α)
  allImfs : Dict (List (List α))

/-- What a call fixes before the trials: `_S`, `_T`, `_scale`, `max_imf`.  /repo/PyEMD/EEMD.py:182-190. -/
structure Job (α : Type) where
  S : List α
  T : List α
  scale : α
  maxImf : Int

/-- The mutable parts of the object that a trial touches: generator and inner `EMD`. -/
structure TrialState (α ρ : Type) where
  random : ρ
  emd : EMD.Obj α

/-- `EEMD._trial_update(trial)`.  /repo/PyEMD/EEMD.py:232-243, 245-251.  `self._S + noise` has equal shapes because the
noise is generated with `self._N = len(S)` samples. -/
def trialUpdate (rng : Rng α ρ) (fuel : Nat) (sp : SciPy α) (cfg : Cfg α) (job : Job α) (st : TrialState α ρ) :
    PyM (List (List α) × Option (List α)) × TrialState α ρ :=
  match generateNoise rng cfg.noiseKind st.random job.scale job.S.length with
  | (.error e, r) => (.error e, { st with random := r })
  | (.ok noise, r) =>
    match st.emd.emd fuel sp (vadd job.S noise) (some job.T) job.maxImf with
    | (.error e, o) => (.error e, { random := r, emd := o })
    | (.ok imfs, o) =>
      if cfg.separateTrends then
        match o.getImfsAndTrend with
        | .error e => (.error e, { random := r, emd := o })
        | .ok (imfs, trend) => (.ok (imfs, some trend), { random := r, emd := o })
      else (.ok (imfs, none), { random := r, emd := o })

/-- `for imf_num, imf in enumerate(imfs)` from number `i` on.  /repo/PyEMD/EEMD.py:216-217. -/
def addImfs (d : Dict (List (List α))) (i : Nat) : List (List α) → Dict (List (List α))
  | [] => d
  | imf :: imfs => addImfs (d.append i imf) (i + 1) imfs

/-- Body of the collecting loop.  /repo/PyEMD/EEMD.py:206-217. -/
def addTrial (d : Dict (List (List α))) (r : List (List α) × Option (List α)) : Dict (List (List α)) :=
  match r.2 with
  | some trend => addImfs (d.append (-1) trend) 0 r.1
  | none => addImfs d 0 r.1

/-- Sequential mode: `map` is lazy, so the trials run inside the collecting loop and an exception leaves the trials
collected so far in `_all_imfs`.  /repo/PyEMD/EEMD.py:197-217. -/
def runTrials (rng : Rng α ρ) (fuel : Nat) (sp : SciPy α) (cfg : Cfg α) (job : Job α) :
    Nat → TrialState α ρ → Dict (List (List α)) → PyM Unit × TrialState α ρ × Dict (List (List α))
  | 0, st, d => (.ok (), st, d)
  | n + 1, st, d =>
    match trialUpdate rng fuel sp cfg job st with
    | (.error e, st') => (.error e, st', d)
    | (.ok r, st') => runTrials rng fuel sp cfg job n st' (addTrial d r)

/-- One chunk in a worker: the copied object runs `n` trials one after the other (`mapstar`); the copy is discarded.
Called through /repo/PyEMD/EEMD.py:194-199. -/
def runChunk (rng : Rng α ρ) (fuel : Nat) (sp : SciPy α) (cfg : Cfg α) (job : Job α) :
    Nat → TrialState α ρ → PyM (List (List (List α) × Option (List α)))
  | 0, _ => .ok []
  | n + 1, st =>
    match trialUpdate rng fuel sp cfg job st with
    | (.error e, _) => .error e
    | (.ok r, st') =>
      match runChunk rng fuel sp cfg job n st' with
      | .error e => .error e
      | .ok rs => .ok (r :: rs)

/-- Default chunk size of `Pool.map`: `ceil(len / (4 * processes))`, 0 for an empty iterable.
/repo/PyEMD/EEMD.py:194-199. -/
def chunkSize (trials processes : Nat) : Nat :=
  trials / (4 * processes) + if trials % (4 * processes) = 0 then 0 else 1

/-- Lengths of the chunks: full ones, then the rest.  /repo/PyEMD/EEMD.py:199. -/
def chunkLengths (trials c : Nat) : List Nat :=
  List.replicate (trials / c) c ++ if trials % c = 0 then [] else [trials % c]

/-- `MapResult._set` for the chunks in order of completion: store by position, remember the first failure.
/repo/PyEMD/EEMD.py:194-199. -/
def collect {β : Type} (results : List (PyM (List β))) (slots : List (List β)) (err : Option PyErr) :
    List Nat → List (List β) × Option PyErr
  | [] => (slots, err)
  | i :: order =>
    match results[i]? with
    | some (.ok r) => collect results (if err.isNone then slots.set i r else slots) err order
    | some (.error e) => collect results slots (if err.isNone then some e else err) order
    | none => collect results slots err order

/-- `pool.map` when the chunks finish in the given order.  /repo/PyEMD/EEMD.py:194-199. -/
def poolMap {β : Type} (results : List (PyM (List β))) (order : List Nat) : PyM (List β) :=
  match collect results (List.replicate results.length []) none order with
  | (slots, none) => .ok slots.flatten
  | (_, some e) => .error e

/-- `self._all_imfs[len(self._all_imfs)] = self._all_imfs.pop(-1)`: Python pops first, so the new key is the number of
the remaining keys.  /repo/PyEMD/EEMD.py:219-222.  The new key is not among the remaining ones (`renameTrend_cons` in
`Verif/Lemmas/Eemd.lean`), so the assignment adds an entry at the end. -/
def renameTrend {β : Type} (d : Dict β) : Dict β :=
  match d.lookup (-1) with
  | none => d
  | some v =>
    let rest := d.filter (fun p => p.1 != -1)
    rest ++ [((rest.length : Int), v)]

/-- `imfs.mean(axis=0)`.  /repo/PyEMD/EEMD.py:278.  The rows of an ensemble have equal lengths `n` (`C02_row_lengths`). -/
def meanRows (n : Nat) (rows : List (List α)) : List α :=
  (sumRows n rows).map (fun x => x / lit (rows.length : ℚ))

/-- `EEMD.ensemble_mean()` for rows of length `n`.  /repo/PyEMD/EEMD.py:276-278. -/
def ensembleMean (n : Nat) (d : Dict (List (List α))) : List (List α) := d.map (fun p => meanRows n p.2)

/-- `imfs.std(axis=0)`: the root of the mean squared distance from the mean.  /repo/PyEMD/EEMD.py:282.  The square root is a parameter. -/
def stdRows (sqrt : α → α) (n : Nat) (rows : List (List α)) : List α :=
  let m := meanRows n rows
  (meanRows n (rows.map (fun r => List.zipWith (fun x y => (x - y) * (x - y)) r m))).map sqrt

/-- `EEMD.ensemble_std()` for rows of length `n`.  /repo/PyEMD/EEMD.py:280-282. -/
def ensembleStd (sqrt : α → α) (n : Nat) (d : Dict (List (List α))) : List (List α) := d.map (fun p => stdRows sqrt n p.2)

/-- `EEMD.ensemble_count()`.  /repo/PyEMD/EEMD.py:272-274. -/
def ensembleCount {β : Type} (d : Dict (List β)) : List Nat := d.map (fun p => p.2.length)

/-- After the trials: rename the trend, average, compute the residue.  /repo/PyEMD/EEMD.py:219-230. -/
def finish (S : List α) (o : Obj α ρ) (d : Dict (List (List α))) : PyM (List (List α)) × Obj α ρ :=
  let d := renameTrend d
  let E := ensembleMean S.length d
  (.ok E, { o with allImfs := d, E_IMF := some E, residue := some (vsub S (sumRows S.length E)) })

/-- The attributes set before the trials; `get_timeline` for `T=None`; `np.max(S)` raises for an empty signal.
/repo/PyEMD/EEMD.py:182-190. -/
def prepare (cfg : Cfg α) (S : List α) (T : Option (List α)) (maxImf : Int) : PyM (Job α) := do
  let T ← match T with
    | some T => pure T
    | none => EMD.timeline S.length
  let mx ← npMaxE S
  let mn ← npMinE S
  return { S, T, scale := cfg.noiseWidth * pyAbs (mx - mn), maxImf }

/-- `EEMD.eemd(S, T, max_imf)`; `order` is the order in which the chunks finish (parallel mode only).
/repo/PyEMD/EEMD.py:155-230.  The progress bar is not modelled. -/
def Obj.eemd (rng : Rng α ρ) (fuel : Nat) (sp : SciPy α) (order : List Nat) (o : Obj α ρ) (S : List α)
    (T : Option (List α)) (maxImf : Int) : PyM (List (List α)) × Obj α ρ :=
  match prepare o.cfg S T maxImf with
  | .error e => (.error e, o)
  | .ok job =>
    if o.cfg.parallel then
      let st : TrialState α ρ := { random := o.random, emd := o.emd }
      let c := chunkSize o.cfg.trials o.cfg.processes
      let results := (chunkLengths o.cfg.trials c).map (fun n => runChunk rng fuel sp o.cfg job n st)
      match poolMap results order with
      | .error e => (.error e, o)
      | .ok rs => finish S o (rs.foldl addTrial [])
    else
      match runTrials rng fuel sp o.cfg job o.cfg.trials { random := o.random, emd := o.emd } [] with
      | (.error e, st, d) => (.error e, { o with random := st.random, emd := st.emd, allImfs := d })
      | (.ok (), st, d) => finish S { o with random := st.random, emd := st.emd } d

/-- `EEMD.noise_seed(seed)`.  /repo/PyEMD/EEMD.py:151-153. -/
def Obj.noiseSeed (rng : Rng α ρ) (o : Obj α ρ) (s : Int) : Obj α ρ := { o with random := rng.seed s }

/-- `EEMD.get_imfs_and_residue()`.  /repo/PyEMD/EEMD.py:253-265. -/
def Obj.getImfsAndResidue (o : Obj α ρ) : PyM (List (List α) × List α) :=
  match o.E_IMF, o.residue with
  | some i, some r => .ok (i, r)
  | _, _ => .error .valueError

end EEMD
end PyEMD
