import Verif.Model.Memory
import Verif.Model.Jit
import Verif.Model.Matlab

/-!
# `JitEMD` and `EMD_matlab` with arrays in memory

Both functions write into arrays: `residue[:] = ...` (jitemd.py), `Res -= imf` and `IMF[key] *= scale` (EMD_matlab.py); `JitEMD` stores
and hands out views.  The memory is that of `Model/Memory.lean`.

Simplified: the inner loops create a new array with every `imf = imf - mean` and write into none, so they are computed on the contents;
their last `imf` is a new array.  The methods called there only read.
-/

namespace PyEMD
namespace Mem

variable {α : Type} [Add α] [Sub α] [Mul α] [Div α] [Neg α] [LT α] [LE α] [BEq α]
  [DecidableLT α] [DecidableLE α] [NpScalar α]

namespace Jit
open PyEMD.EMD (Cfg)

/-- One round of the outer loop: the address of `imf`, `extNo`, and whether the sifting found a trend.
/repo/PyEMD/experimental/jitemd.py:834-903. -/
def emdRound (sp : SciPy α) (cfg : Cfg α) (T S residue IMF : Nat) (extNo : Int) : MemM α (Nat × Int × Bool) := do
  let s ← readVec S
  setVec residue (vsub s (sumRows s.length (← readMat IMF)))
  let imf ← copyVec residue
  let (r, why) ← py (PyEMD.Jit.siftLoop sp cfg (← readVec T) (EMD.siftFuel cfg)
    { n := 0, nh := 0, extNo, imf := ← readVec imf, subs := 0 })
  let imf ← newVec r.imf
  return (imf, r.extNo, why == .trend)

/-- The outer loop; `np.vstack` creates a new array.  /repo/PyEMD/experimental/jitemd.py:833-910. -/
def emdLoop (sp : SciPy α) (cfg : Cfg α) (T S residue : Nat) (max_imf : Int) : Nat → Nat → Int → MemM α (Nat × Int)
  | 0, _, _ => py (.error .outOfFuel)
  | fuel + 1, IMF, extNo => do
    let (imf, extNo, trend) ← emdRound sp cfg T S residue IMF extNo
    let s ← readVec S
    let IMF ← newMat (← py (PyEMD.Jit.vstack s.length (← readMat IMF) (← readVec imf)))
    let rows ← readMat IMF
    let fin ← py (PyEMD.Jit.endCondition cfg s rows)
    if fin || decide ((rows.length : Int) = max_imf) || trend then return (IMF, extNo)
    else emdLoop sp cfg T S residue max_imf fuel IMF extNo

/-- After the loop: `IMF[:-1]` is a view, `IMF.copy()` a new array; returned is the view or, by `np.vstack`, a new array.
/repo/PyEMD/experimental/jitemd.py:912-924. -/
def finish (S IMF : Nat) (extNo : Int) : MemM α MatRef := do
  let all ← readMat IMF
  let view : MatRef := { addr := IMF, rows := if extNo ≤ 2 then all.length - 1 else all.length }
  let imfs ← newMat (all.take view.rows)
  let s ← readVec S
  let residue ← newVec (vsub s (sumRows s.length (← readMat imfs)))
  if !allclose0 (← readVec residue) then
    let top := (← readMat view.addr).take view.rows
    let out ← newMat (← py (PyEMD.Jit.vstack s.length top (← readVec residue)))
    return { addr := out, rows := top.length + 1 }
  else return view

/-- The module function `emd` for arrays at the addresses `S` and `T`; `residue = S.astype(DTYPE)` is a copy.
/repo/PyEMD/experimental/jitemd.py:790-924. -/
def emd (fuel : Nat) (sp : SciPy α) (cfg : Cfg α) (S T : Nat) (max_imf : Int) : MemM α MatRef := do
  let residue ← copyVec S
  if (← readVec S).length ≠ (← readVec T).length then py (.error .valueError)
  else
    let IMF ← newMat []
    let (IMF, extNo) ← emdLoop sp cfg T S residue max_imf fuel IMF (-1)
    finish S IMF extNo

/-- A view of some consecutive rows of a two-dimensional array (`imfs[:-1, :]`, `imfs[-1:, :]`; a whole array is a view of all its rows).
/repo/PyEMD/experimental/jitemd.py:76-77. -/
structure View where
  addr : Nat
  start : Nat
  stop : Nat
  deriving DecidableEq, Repr

/-- The rows seen through a view.  /repo/PyEMD/experimental/jitemd.py:62-65 (reading uses). -/
def View.read (h : Heap α) (v : View) : List (List α) := ((h.mats[v.addr]?.getD []).take v.stop).drop v.start

/-- The `JitEMD` object: configuration and the views `self.imfs`, `self.residue`.  /repo/PyEMD/experimental/jitemd.py:53-60. -/
structure Obj (α : Type) where
  cfg : Cfg α
  imfs : Option View
  residue : Option View

/-- `JitEMD.emd`: both attributes are views of the array that is returned.  /repo/PyEMD/experimental/jitemd.py:67-78. -/
def Obj.emd (fuel : Nat) (sp : SciPy α) (o : Obj α) (S T : Nat) (max_imf : Int) (h : Heap α) : PyM MatRef × Obj α × Heap α :=
  match Jit.emd fuel sp o.cfg S T max_imf h with
  | (.ok r, h') =>
    (.ok r, { o with imfs := some { addr := r.addr, start := 0, stop := r.rows - 1 }
                     residue := some { addr := r.addr, start := r.rows - 1, stop := r.rows } }, h')
  | (.error e, h') => (.error e, o, h')

/-- `JitEMD.get_imfs_and_trend()`: copies if the residue vanishes, otherwise the stored views.
/repo/PyEMD/experimental/jitemd.py:62-65.  The copy of one row is an array of one row here. -/
def Obj.getImfsAndTrend (o : Obj α) : MemM α (View × View) :=
  match o.imfs, o.residue with
  | some i, some r => fun h =>
    (if (r.read h).all allclose0 then do
      let m := i.read h
      let last ← py (pyGet m (-1))
      let a ← newMat (pySlice m 0 (-1))
      let b ← newMat [last]
      return ({ addr := a, start := 0, stop := (pySlice m 0 (-1)).length }, { addr := b, start := 0, stop := 1 })
    else return (i, r) : MemM α (View × View)) h
  | _, _ => py (.error .typeError)

end Jit

namespace Matlab
open PyEMD.Matlab

/-- Variables of the outer loop: addresses of `Res`, `imf` and of the entries of `IMF`.  /repo/PyEMD/EMD_matlab.py:472-501. -/
structure State where
  Res : Nat
  imf : Nat
  IMF : List (Nat × Nat)
  EXT : List (Nat × Int)
  ITER : List (Nat × Int)
  imfNo : Nat
  extNo : Int
  /-- not in the code, as in `Model/Matlab.lean` -/
  ends : List SiftEnd

/-- One round of the outer loop: `Res -= imf` writes into `Res`; `imf = Res.copy()`; `IMF[imfNo] = imf.copy()`.
/repo/PyEMD/EMD_matlab.py:503-610. -/
def emdRound (sp : SciPy α) (cfg : Cfg α) (T n : Nat) (maxImf : Int) (st : State) : MemM α (State × Bool) := do
  let r ← readVec st.Res
  let x ← readVec st.imf
  if x.length ≠ r.length then py (.error .valueError)
  else
    writeVec st.Res (vsub r x)
    let imf ← copyVec st.Res
    let (s, why) ← py (PyEMD.Matlab.siftLoop sp cfg (← readVec T) (cfg.MAX_ITERATION.toNat + 1)
      { n := 0, nh := 0, extNo := st.extNo, imf := ← readVec imf, mean := vzeros n })
    let imf ← newVec s.imf
    let c ← copyVec imf
    let imfNo := st.imfNo + 1
    return ({ Res := st.Res, imf, IMF := dictSet st.IMF st.imfNo c, EXT := dictSet st.EXT st.imfNo s.extNo,
              ITER := dictSet st.ITER st.imfNo s.n, imfNo, extNo := s.extNo, ends := st.ends ++ [why] },
            why == .trend || decide ((imfNo : Int) = maxImf - 1))

/-- `while notFinish`.  /repo/PyEMD/EMD_matlab.py:503-610. -/
def emdLoop (sp : SciPy α) (cfg : Cfg α) (T n : Nat) (maxImf : Int) : Nat → State → MemM α State
  | 0, _ => py (.error .outOfFuel)
  | fuel + 1, st => do
    let (st, fin) ← emdRound sp cfg T n maxImf st
    if fin then return st else emdLoop sp cfg T n maxImf fuel st

/-- The contents of several arrays.  /repo/PyEMD/EMD_matlab.py:613. -/
def readVecs : List Nat → MemM α (List (List α))
  | [] => pure []
  | a :: as => do
    let v ← readVec a
    return v :: (← readVecs as)

/-- `for key in list(IMF.keys()): IMF[key] *= scale`, in place.  /repo/PyEMD/EMD_matlab.py:621-622. -/
def scaleAll (scale : α) : List (Nat × Nat) → MemM α Unit
  | [] => pure ()
  | p :: d => do
    let v ← readVec p.2
    writeVec p.2 (v.map (fun x => x * scale))
    scaleAll scale d

/-- What `emd` returns; the components by their addresses.  /repo/PyEMD/EMD_matlab.py:623. -/
structure Result where
  IMF : List (Nat × Nat)
  EXT : List (Nat × Int)
  ITER : List (Nat × Int)
  imfNo : Nat
  ends : List SiftEnd

/-- Residue, appended if it is meaningful; scaling.  /repo/PyEMD/EMD_matlab.py:612-623. -/
def finish (scaledS : Nat) (scale : α) (st : State) : MemM α Result := do
  let s ← readVec scaledS
  let rows ← readVecs (← py (dictGets st.IMF (List.range st.imfNo)))
  if rows.all (fun r => decide (r.length = s.length)) then
    let Res ← newVec (vsub s (sumRows s.length rows))
    let more := decide (lit (1 / 10000000000) < npSum ((← readVec Res).map pyAbs))
    let IMF := if more then dictSet st.IMF st.imfNo Res else st.IMF
    let ITER := if more then dictSet st.ITER st.imfNo 0 else st.ITER
    let EXT := if more then dictSet st.EXT st.imfNo st.extNo else st.EXT
    let imfNo := if more then st.imfNo + 1 else st.imfNo
    scaleAll scale IMF
    return { IMF, EXT, ITER, imfNo, ends := st.ends }
  else py (.error .valueError)

/-- `emd(S, T, maxImf)` for arrays at the addresses `S` and `T`.  /repo/PyEMD/EMD_matlab.py:431-623.  `T` is new if not given;
`S.astype`, `Res / scale` and `S / scale` are new arrays. -/
def emd (fuel : Nat) (sp : SciPy α) (cfg : Cfg α) (S : Nat) (T : Option Nat) (maxImf : Int) : MemM α Result := do
  let s ← readVec S
  let T ← match T with
    | none => newVec ((List.range s.length).map (fun k : Nat => lit (k : ℚ)))
    | some a => pure a
  let res0 ← copyVec S
  let scale : α := lit 1
  let Res ← newVec ((← readVec res0).map (fun x => x / scale))
  let scaledS ← newVec ((← readVec S).map (fun x => x / scale))
  let imf ← newVec (vzeros s.length)
  if s.length ≠ (← readVec T).length then py (.error .valueError)
  else
    let st ← emdLoop sp cfg T s.length maxImf fuel { Res, imf, IMF := [], EXT := [], ITER := [], imfNo := 0, extNo := 0, ends := [] }
    finish scaledS scale st

end Matlab
end Mem
end PyEMD
