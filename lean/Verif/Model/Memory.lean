import Verif.Model.Emd

/-!
# `EMD.emd` with arrays in memory

The other models pass arrays by value.  numpy passes them by reference and `EMD.emd` writes into some of them
(`residue[:] = ...`, `mean[:] = ...`, `imf[:] = ...`).  Here arrays live in a memory, variables hold addresses, and every
statement of /repo/PyEMD/EMD.py:773-960 that creates, copies, writes or shares an array is one operation on the memory.

Simplified: methods that only read their arrays (`find_extrema`, `extract_max_min_spline`, `check_imf`, `end_condition`,
`_normalize_time`) are applied to the contents; their results are temporaries nobody else refers to.  One- and two-dimensional
arrays have separate addresses; the only view taken of a two-dimensional array that outlives a statement is `IMF[:-1]`.
-/

namespace PyEMD
namespace Mem

/-- The memory: contents of the one- and of the two-dimensional arrays created so far (the arrays of
/repo/PyEMD/EMD.py:773-960 and those of the caller). -/
structure Heap (α : Type) where
  vecs : List (List α)
  mats : List (List (List α))

/-- A computation with memory that may raise; the memory survives the exception (statements of /repo/PyEMD/EMD.py:796-920). -/
def MemM (α β : Type) : Type := Heap α → PyM β × Heap α

/-- Sequencing of statements; an exception skips the rest. -/
instance {α : Type} : Monad (MemM α) where
  pure b := fun h => (.ok b, h)
  bind m f := fun h =>
    match m h with
    | (.ok b, h') => f b h'
    | (.error e, h') => (.error e, h')

section Ops
variable {α β : Type}

/-- A statement that touches no array in memory but may raise (calls such as /repo/PyEMD/EMD.py:840). -/
def py (p : PyM β) : MemM α β := fun h => (p, h)

/-- A new one-dimensional array (e.g. `np.zeros`, /repo/PyEMD/EMD.py:828). -/
def newVec (v : List α) : MemM α Nat := fun h => (.ok h.vecs.length, { h with vecs := h.vecs ++ [v] })

/-- A new two-dimensional array (e.g. `np.vstack`, /repo/PyEMD/EMD.py:901). -/
def newMat (m : List (List α)) : MemM α Nat := fun h => (.ok h.mats.length, { h with mats := h.mats ++ [m] })

/-- The contents of a one-dimensional array (every reading use, e.g. /repo/PyEMD/EMD.py:826). -/
def readVec (a : Nat) : MemM α (List α) := fun h => (.ok (h.vecs[a]?.getD []), h)

/-- The contents of a two-dimensional array (every reading use, e.g. /repo/PyEMD/EMD.py:904). -/
def readMat (a : Nat) : MemM α (List (List α)) := fun h => (.ok (h.mats[a]?.getD []), h)

/-- Overwrites an array in place (the store of `residue[:] = ...`, /repo/PyEMD/EMD.py:826). -/
def writeVec (a : Nat) (v : List α) : MemM α Unit := fun h => (.ok (), { h with vecs := h.vecs.set a v })

/-- Overwrites a two-dimensional array in place (what a caller may do with an array from /repo/PyEMD/EMD.py:920, 936). -/
def writeMat (a : Nat) (m : List (List α)) : MemM α Unit := fun h => (.ok (), { h with mats := h.mats.set a m })

/-- The contents of an optional argument (`T`, /repo/PyEMD/EMD.py:796-803). -/
def readOpt : Option Nat → MemM α (Option (List α))
  | none => pure none
  | some a => fun h => (.ok (some (h.vecs[a]?.getD [])), h)

/-- `x.copy()` for a one-dimensional array (/repo/PyEMD/EMD.py:827, 849). -/
def copyVec (a : Nat) : MemM α Nat := do newVec (← readVec a)

/-- `a[:] = v` with numpy's broadcasting (/repo/PyEMD/EMD.py:826, 847, 850). -/
def setVec (a : Nat) (v : List α) : MemM α Unit := do
  let d ← readVec a
  writeVec a (← py (assignAll d.length v))

end Ops

/-- A reference to (the leading rows of) a two-dimensional array: `IMF`, `IMF[:-1]` (/repo/PyEMD/EMD.py:901, 910). -/
structure MatRef where
  addr : Nat
  rows : Nat
  deriving DecidableEq, Repr

/-- Variables of the inner loop: counters and the addresses of `imf` and `mean`.  /repo/PyEMD/EMD.py:827-832. -/
structure Sift where
  n : Int
  nh : Int
  extNo : Int
  imf : Nat
  mean : Nat

/-- How a pass through the inner loop ends; `trend` is the assignment `finished = True` (/repo/PyEMD/EMD.py:836-898). -/
inductive Step
  | brk (s : Sift) (trend : Bool)
  | cont (s : Sift)

open EMD

variable {α : Type} [Add α] [Sub α] [Mul α] [Div α] [Neg α] [LT α] [LE α] [BEq α]
  [DecidableLT α] [DecidableLE α] [NpScalar α]

/-- `0.5 * (max_env + min_env)` and the knots, as temporaries.  /repo/PyEMD/EMD.py:846-847 (right-hand side). -/
def meanEnv (sp : SciPy α) (cfg : Cfg α) (T imf : List α) : PyM (List α × List (α × α) × List (α × α)) := do
  match ← extractMaxMinSpline sp cfg.detection cfg.splineKind cfg.nbsym T imf with
  | none => .error .typeError
  | some env =>
    let s ← bcast (fun a b => a + b) env.maxEnv env.minEnv
    return (s.map (fun x => lit (1 / 2) * x), env.eMax, env.eMin)

/-- `max_env, min_env, eMax, eMin = ...; mean[:] = ...; imf_old = imf.copy(); imf[:] = imf - mean`; returns the address of
`imf_old` and the knots.  /repo/PyEMD/EMD.py:846-850. -/
def siftOnce (sp : SciPy α) (cfg : Cfg α) (T imf mean : Nat) : MemM α (Nat × List (α × α) × List (α × α)) := do
  let (m, eMax, eMin) ← py (meanEnv sp cfg (← readVec T) (← readVec imf))
  setVec mean m
  let old ← copyVec imf
  writeVec imf (vsub (← readVec imf) (← readVec mean))
  return (old, eMax, eMin)

/-- Number of extrema and of zero crossings of an array.  /repo/PyEMD/EMD.py:840-843, 860-867, 881-884. -/
def counts (cfg : Cfg α) (T imf : Nat) : MemM α (Int × Int) := do
  py (countExt cfg (← readVec T) (← readVec imf))

/-- `self.check_imf(imf, imf_old, eMax, eMin)`.  /repo/PyEMD/EMD.py:889. -/
def check (cfg : Cfg α) (imf old : Nat) (eMax eMin : List (α × α)) : MemM α Bool := do
  py (checkImf cfg (← readVec imf) (← readVec old) eMax eMin)

/-- Body of the inner loop.  /repo/PyEMD/EMD.py:835-898. -/
def siftBody (sp : SciPy α) (cfg : Cfg α) (T : Nat) (s : Sift) : MemM α Step := do
  let n := s.n + 1
  if cfg.MAX_ITERATION ≤ n then return .brk { s with n } false
  else
    let (extNo, _) ← counts cfg T s.imf
    if extNo > 2 then
      let (old, eMax, eMin) ← siftOnce sp cfg T s.imf s.mean
      if cfg.FIXE ≠ 0 then
        if cfg.FIXE ≤ n then return .brk { s with n, extNo } false
        else return .cont { s with n, extNo }
      else if cfg.FIXE_H ≠ 0 then
        let (extNo, nzm) ← counts cfg T s.imf
        if n = 1 then return .cont { s with n, extNo }
        else
          let nh := if |extNo - nzm| < 2 then s.nh + 1 else 0
          if cfg.FIXE_H ≤ nh then return .brk { s with n, nh, extNo } false
          else return .cont { s with n, nh, extNo }
      else
        let (extNo, nzm) ← counts cfg T s.imf
        let f1 ← check cfg s.imf old eMax eMin
        let f2 := decide (|extNo - nzm| < 2)
        if f1 && f2 then return .brk { s with n, extNo } false
        else return .cont { s with n, extNo }
    else return .brk { s with n, extNo } true

/-- The inner `while True` loop.  /repo/PyEMD/EMD.py:834-898. -/
def siftLoop (sp : SciPy α) (cfg : Cfg α) (T : Nat) : Nat → Sift → MemM α (Sift × Bool)
  | 0, _ => py (.error .outOfFuel)
  | fuel + 1, s => do
    match ← siftBody sp cfg T s with
    | .brk s' trend => return (s', trend)
    | .cont s' => siftLoop sp cfg T fuel s'

/-- One round of the outer loop: `residue[:] = S - np.sum(IMF[:imfNo], axis=0)`, `imf = residue.copy()`,
`mean = np.zeros(len(S))`, and the sifting.  /repo/PyEMD/EMD.py:826-898. -/
def emdRound (sp : SciPy α) (cfg : Cfg α) (T S residue IMF : Nat) (extNo : Int) : MemM α (Sift × Bool) := do
  let s ← readVec S
  setVec residue (vsub s (sumRows s.length (← readMat IMF)))
  let imf ← copyVec residue
  let mean ← newVec (List.replicate s.length (lit 0))
  siftLoop sp cfg T (siftFuel cfg) { n := 0, nh := 0, extNo, imf, mean }

/-- The outer loop; `IMF = np.vstack((IMF, imf.copy()))` creates a new array.  /repo/PyEMD/EMD.py:823-906. -/
def emdLoop (sp : SciPy α) (cfg : Cfg α) (T S residue : Nat) (max_imf : Int) : Nat → Nat → Int → MemM α (Nat × Int)
  | 0, _, _ => py (.error .outOfFuel)
  | fuel + 1, IMF, extNo => do
    let (s, trend) ← emdRound sp cfg T S residue IMF extNo
    let IMF ← newMat ((← readMat IMF) ++ [← readVec s.imf])
    let fin ← py (endCondition cfg (← readVec S) (← readMat IMF))
    if fin || decide (((← readMat IMF).length : Int) = max_imf) || trend then return (IMF, s.extNo)
    else emdLoop sp cfg T S residue max_imf fuel IMF s.extNo

/-- What the call leaves behind: the returned array, and the addresses of `self.imfs` and `self.residue`.
/repo/PyEMD/EMD.py:913-920. -/
structure Result where
  rows : MatRef
  imfs : Nat
  residue : Nat

/-- After the loop: `IMF[:-1]` is a view, `IMF.copy()` a new array, and the array returned is the view or, by `np.vstack`, a
new one.  /repo/PyEMD/EMD.py:908-920. -/
def finish (S IMF : Nat) (extNo : Int) : MemM α Result := do
  let all ← readMat IMF
  let view : MatRef := { addr := IMF, rows := if extNo ≤ 2 then all.length - 1 else all.length }
  let imfs ← newMat ((← readMat view.addr).take view.rows)
  let s ← readVec S
  let residue ← newVec (vsub s (sumRows s.length (← readMat imfs)))
  if allclose0 (← readVec residue) then return { rows := view, imfs, residue }
  else
    let top := (← readMat view.addr).take view.rows
    let out ← newMat (top ++ [← readVec residue])
    return { rows := { addr := out, rows := top.length + 1 }, imfs, residue }

/-- `EMD.emd(S, T, max_imf)` for arrays at the addresses `S` and `T`.  /repo/PyEMD/EMD.py:773-920.  `S, T = unify_types(S, T)`
hands `S` on as it is when the types agree (/repo/PyEMD/utils.py:72-79), so the variable `S` of the function is the array of the
caller; `residue = S.astype(self.DTYPE)` is a copy. -/
def emd (fuel : Nat) (sp : SciPy α) (cfg : Cfg α) (S : Nat) (T : Option Nat) (max_imf : Int) : MemM α Result := do
  let s ← readVec S
  let t ← readOpt T
  let T ← newVec (← py (prepareTime cfg s t))
  let residue ← copyVec S
  let IMF ← newMat []
  let (IMF, extNo) ← emdLoop sp cfg T S residue max_imf fuel IMF (-1)
  finish S IMF extNo

/-- The `EMD` object: configuration and the addresses of `self.imfs`, `self.residue`.  /repo/PyEMD/EMD.py:93-117. -/
structure Obj (α : Type) where
  cfg : Cfg α
  imfs : Option Nat
  residue : Option Nat

/-- `EMD.emd` as a method: after an exception the attributes are those from before.  /repo/PyEMD/EMD.py:773-920. -/
def Obj.emd (fuel : Nat) (sp : SciPy α) (o : Obj α) (S : Nat) (T : Option Nat) (max_imf : Int) (h : Heap α) :
    PyM MatRef × Obj α × Heap α :=
  match Mem.emd fuel sp o.cfg S T max_imf h with
  | (.ok r, h') => (.ok r.rows, { o with imfs := some r.imfs, residue := some r.residue }, h')
  | (.error e, h') => (.error e, o, h')

/-- `EMD.get_imfs_and_residue()`: the stored arrays themselves.  /repo/PyEMD/EMD.py:922-936. -/
def Obj.getImfsAndResidue (o : Obj α) : MemM α (Nat × Nat) :=
  match o.imfs, o.residue with
  | some i, some r => pure (i, r)
  | _, _ => py (.error .valueError)

/-- `EMD.get_imfs_and_trend()`: copies if the residue vanishes, otherwise the stored arrays.  /repo/PyEMD/EMD.py:938-960. -/
def Obj.getImfsAndTrend (o : Obj α) : MemM α (Nat × Nat) := do
  let (imfs, residue) ← o.getImfsAndResidue
  if allclose0 (← readVec residue) then
    let m ← readMat imfs
    let last ← py (pyGet m (-1))
    return (← newMat m.dropLast, ← newVec last)
  else return (imfs, residue)

end Mem
end PyEMD
