import Verif.Model.Memory
import Verif.Model.Eemd

/-!
# `EEMD.eemd` with arrays in memory

Sequential mode (`parallel=False`): the trials run one after the other on the same inner `EMD` object, and the loop that
collects them keeps references (rows of the arrays the trials return, or rows of `EMD.imfs` itself with `separate_trends`), which
are read only after the last trial by `np.array`.  /repo/PyEMD/EEMD.py:155-265.
-/

namespace PyEMD
namespace Mem
namespace EEMD
open PyEMD.EEMD (Cfg Dict NoiseKind generateNoise meanRows renameTrend)

variable {α ρ : Type} [Add α] [Sub α] [Mul α] [Div α] [Neg α] [LT α] [LE α] [BEq α]
  [DecidableLT α] [DecidableLE α] [NpScalar α]

/-- What the collecting loop keeps: a row of a two-dimensional array (iteration over `imfs`, /repo/PyEMD/EEMD.py:216-217) or a
one-dimensional array or row (`trend`, /repo/PyEMD/EEMD.py:213-214). -/
inductive RowRef
  | row (a i : Nat)
  | vec (a : Nat)

/-- The samples behind a reference, when `np.array` reads them (/repo/PyEMD/EEMD.py:225). -/
def RowRef.read (h : Heap α) : RowRef → List α
  | .row a i => (h.mats[a]?.getD [])[i]?.getD []
  | .vec a => h.vecs[a]?.getD []

/-- The object: generator, inner `EMD`, addresses of `E_IMF` and `residue`, and the references in `_all_imfs`.
/repo/PyEMD/EEMD.py:83-108. -/
structure Obj (α ρ : Type) where
  cfg : Cfg α
  random : ρ
  emd : Mem.Obj α
  E_IMF : Option Nat
  residue : Option Nat
  allImfs : Dict (List RowRef)

/-- `_S`, `_T` (references to the arrays of the caller), `_scale`, `max_imf`.  /repo/PyEMD/EEMD.py:182-190. -/
structure Job (α : Type) where
  S : Nat
  T : Nat
  scale : α
  maxImf : Int

/-- Generator and inner `EMD`.  /repo/PyEMD/EEMD.py:232-243. -/
structure TrialState (α ρ : Type) where
  random : ρ
  emd : Mem.Obj α

/-- `imfs, trend = self.EMD.get_imfs_and_trend()` after a decomposition.  /repo/PyEMD/EEMD.py:240-241. -/
def separate (o : Mem.Obj α) (h : Heap α) : PyM (MatRef × Option Nat) × Heap α :=
  match o.getImfsAndTrend h with
  | (.error e, h) => (.error e, h)
  | (.ok (i, t), h) => (.ok ({ addr := i, rows := (h.mats[i]?.getD []).length }, some t), h)

/-- `EEMD._trial_update(trial)`.  /repo/PyEMD/EEMD.py:232-243, 245-251.  `self._S + noise` is a new array. -/
def trialUpdate (rng : Rng α ρ) (fuel : Nat) (sp : SciPy α) (cfg : Cfg α) (job : Job α) (st : TrialState α ρ) (h : Heap α) :
    PyM (MatRef × Option Nat) × TrialState α ρ × Heap α :=
  match generateNoise rng cfg.noiseKind st.random job.scale (h.vecs[job.S]?.getD []).length with
  | (.error e, r) => (.error e, { st with random := r }, h)
  | (.ok noise, r) =>
    match st.emd.emd fuel sp h.vecs.length (some job.T) job.maxImf
        { h with vecs := h.vecs ++ [vadd (h.vecs[job.S]?.getD []) noise] } with
    | (.error e, o, h) => (.error e, { random := r, emd := o }, h)
    | (.ok imfs, o, h) =>
      if cfg.separateTrends then
        match separate o h with
        | (x, h) => (x, { random := r, emd := o }, h)
      else (.ok (imfs, none), { random := r, emd := o }, h)

/-- `for imf_num, imf in enumerate(imfs)` from number `i` on, `k` rows left.  /repo/PyEMD/EEMD.py:216-217. -/
def addImfs (a : Nat) (d : Dict (List RowRef)) (i : Nat) : Nat → Dict (List RowRef)
  | 0 => d
  | k + 1 => addImfs a (d.append i (.row a i)) (i + 1) k

/-- Body of the collecting loop.  /repo/PyEMD/EEMD.py:206-217. -/
def addTrial (d : Dict (List RowRef)) (r : MatRef × Option Nat) : Dict (List RowRef) :=
  match r.2 with
  | some t => addImfs r.1.addr (d.append (-1) (.vec t)) 0 r.1.rows
  | none => addImfs r.1.addr d 0 r.1.rows

/-- The trials inside the collecting loop (`map` is lazy).  /repo/PyEMD/EEMD.py:197-217. -/
def runTrials (rng : Rng α ρ) (fuel : Nat) (sp : SciPy α) (cfg : Cfg α) (job : Job α) :
    Nat → TrialState α ρ → Dict (List RowRef) → Heap α → PyM Unit × TrialState α ρ × Dict (List RowRef) × Heap α
  | 0, st, d, h => (.ok (), st, d, h)
  | n + 1, st, d, h =>
    match trialUpdate rng fuel sp cfg job st h with
    | (.error e, st', h') => (.error e, st', d, h')
    | (.ok r, st', h') => runTrials rng fuel sp cfg job n st' (addTrial d r) h'

/-- `self._all_imfs[imf_num] = np.array(...)` for every key: new arrays.  /repo/PyEMD/EEMD.py:224-225. -/
def toArrays : Dict (List RowRef) → Heap α → Dict (List RowRef) × Heap α
  | [], h => ([], h)
  | (k, refs) :: d, h =>
    let a := h.mats.length
    let (d', h') := toArrays d { h with mats := h.mats ++ [refs.map (RowRef.read h)] }
    ((k, (List.range refs.length).map (fun i => .row a i)) :: d', h')

/-- After the trials; `E_IMF` is the array that is returned.  /repo/PyEMD/EEMD.py:219-230. -/
def finish (S : Nat) (o : Obj α ρ) (d : Dict (List RowRef)) (h : Heap α) : PyM Nat × Obj α ρ × Heap α :=
  let (d, h) := toArrays (renameTrend d) h
  let s := h.vecs[S]?.getD []
  let E := d.map (fun p => meanRows s.length (p.2.map (RowRef.read h)))
  (.ok h.mats.length,
    { o with allImfs := d, E_IMF := some h.mats.length, residue := some h.vecs.length },
    { vecs := h.vecs ++ [vsub s (sumRows s.length E)], mats := h.mats ++ [E] })

/-- The address of the time array: the one of the caller, or that of a new timeline.  /repo/PyEMD/EEMD.py:182-183. -/
def timeArray (S : Nat) (T : Option Nat) (h : Heap α) : PyM Nat × Heap α :=
  match T with
  | some a => (.ok a, h)
  | none =>
    match EMD.timeline (h.vecs[S]?.getD []).length with
    | .error e => (.error e, h)
    | .ok t => (.ok h.vecs.length, { h with vecs := h.vecs ++ [t] })

/-- `EEMD.eemd(S, T, max_imf)` in sequential mode for arrays at the addresses `S`, `T`.  /repo/PyEMD/EEMD.py:155-230. -/
def Obj.eemd (rng : Rng α ρ) (fuel : Nat) (sp : SciPy α) (o : Obj α ρ) (S : Nat) (T : Option Nat) (maxImf : Int)
    (h : Heap α) : PyM Nat × Obj α ρ × Heap α :=
  match timeArray S T h with
  | (.error e, h) => (.error e, o, h)
  | (.ok T, h) =>
    match npMaxE (h.vecs[S]?.getD []), npMinE (h.vecs[S]?.getD []) with
    | .ok mx, .ok mn =>
      match runTrials rng fuel sp o.cfg { S, T, scale := o.cfg.noiseWidth * pyAbs (mx - mn), maxImf } o.cfg.trials
          { random := o.random, emd := o.emd } [] h with
      | (.error e, st, d, h) => (.error e, { o with random := st.random, emd := st.emd, allImfs := d }, h)
      | (.ok (), st, d, h) => finish S { o with random := st.random, emd := st.emd } d h
    | .error e, _ => (.error e, o, h)
    | _, .error e => (.error e, o, h)

/-- `EEMD.get_imfs_and_residue()`: the stored arrays themselves.  /repo/PyEMD/EEMD.py:253-265. -/
def Obj.getImfsAndResidue (o : Obj α ρ) : PyM (Nat × Nat) :=
  match o.E_IMF, o.residue with
  | some i, some r => .ok (i, r)
  | _, _ => .error .valueError

/-- `EEMD.noise_seed(seed)`.  /repo/PyEMD/EEMD.py:151-153. -/
def Obj.noiseSeed (rng : Rng α ρ) (o : Obj α ρ) (s : Int) : Obj α ρ := { o with random := rng.seed s }

end EEMD
end Mem
end PyEMD
