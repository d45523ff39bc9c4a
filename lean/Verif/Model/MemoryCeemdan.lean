import Verif.Model.Memory
import Verif.Model.Ceemdan

/-!
# `CEEMDAN.ceemdan` with arrays in memory

Sequential mode (`parallel=False`).  `all_noise_EMD` keeps the arrays the inner `EMD.emd` returned, and all later calls of `EMD.emd`
run while they are in use; `res += ...`, `local_mean += ...` and `E_IMF[:k] += ...` write in place.  /repo/PyEMD/CEEMDAN.py:199-395.

Simplified: a row of `all_noises` is an array of its own (the rows are only read).  The attributes `_S`, `_T`, `E_IMF` and the inner
object's results are not visible to the caller and left out; that the inner object writes into nothing it has handed out is part of
`Mem.emd`.
-/

namespace PyEMD
namespace Mem
namespace CEEMDAN
open PyEMD.CEEMDAN (Cfg vdiv vscale)

variable {α ρ : Type} [Add α] [Sub α] [Mul α] [Div α] [Neg α] [LT α] [LE α] [BEq α]
  [DecidableLT α] [DecidableLE α] [NpScalar α]

/-- The rows behind a reference (every reading use, e.g. /repo/PyEMD/CEEMDAN.py:367). -/
def readRef (r : MatRef) : MemM α (List (List α)) := fun h => (.ok ((h.mats[r.addr]?.getD []).take r.rows), h)

/-- `CEEMDAN.emd`: the array the inner `EMD` returns.  /repo/PyEMD/CEEMDAN.py:380-386. -/
def inner (fuel : Nat) (sp : SciPy α) (ecfg : EMD.Cfg α) (S : Nat) (T : Option Nat) (maxImf : Int) : MemM α MatRef := do
  let r ← Mem.emd fuel sp ecfg S T maxImf
  return r.rows

/-- `[self.emd(noise, max_imf=-1) for noise in self.all_noises]`.  /repo/PyEMD/CEEMDAN.py:334. -/
def decomposeAll (fuel : Nat) (sp : SciPy α) (ecfg : EMD.Cfg α) : List Nat → MemM α (List MatRef)
  | [] => pure []
  | a :: as => do
    let r ← inner fuel sp ecfg a none (-1)
    let rs ← decomposeAll fuel sp ecfg as
    return r :: rs

/-- `imfs / imfs_std` is a new array.  /repo/PyEMD/CEEMDAN.py:337-339. -/
def normalise (std : List α → α) (r : MatRef) : MemM α MatRef := do
  let m ← py (PyEMD.CEEMDAN.normalise std (← readRef r))
  let a ← newMat m
  return { addr := a, rows := m.length }

/-- The comprehension that normalises all noises.  /repo/PyEMD/CEEMDAN.py:337-339. -/
def normaliseAll (std : List α → α) : List MatRef → MemM α (List MatRef)
  | [] => pure []
  | r :: rs => do
    let r' ← normalise std r
    let rs' ← normaliseAll std rs
    return r' :: rs'

/-- `CEEMDAN._decompose_noise()`.  /repo/PyEMD/CEEMDAN.py:328-341. -/
def decomposeNoise (std : List α → α) (fuel : Nat) (sp : SciPy α) (cfg : Cfg α) (ecfg : EMD.Cfg α) (noises : List Nat) :
    MemM α (List MatRef) := do
  let raw ← decomposeAll fuel sp ecfg noises
  if cfg.betaProgress then normaliseAll std raw else return raw

/-- `imfs[0]`.  /repo/PyEMD/CEEMDAN.py:377. -/
def firstRow (imfs : List (List α)) : PyM (List α) :=
  match imfs with
  | [] => .error .indexError
  | i :: _ => .ok i

/-- `self.all_noise_EMD[trial]`.  /repo/PyEMD/CEEMDAN.py:377. -/
def noiseOf (noise : List MatRef) (trial : Nat) : PyM MatRef :=
  match noise[trial]? with
  | none => .error .indexError
  | some r => .ok r

/-- `CEEMDAN._trial_update(trial)`; `self._S + noise` is a new array.  /repo/PyEMD/CEEMDAN.py:374-378. -/
def trialUpdate (fuel : Nat) (sp : SciPy α) (cfg : Cfg α) (ecfg : EMD.Cfg α) (noise : List MatRef) (S T : Nat)
    (maxImf : Int) (trial : Nat) : MemM α MatRef := do
  let r ← py (noiseOf noise trial)
  let i ← py (firstRow (← readRef r))
  let a ← newVec (vadd (← readVec S) (vscale cfg.epsilon i))
  inner fuel sp ecfg a (some T) maxImf

/-- `if self.E_IMF.shape[0] < IMFs.shape[0]: self.E_IMF = np.vstack(...)`.  /repo/PyEMD/CEEMDAN.py:364-366. -/
def grow (n E k : Nat) : MemM α Nat := do
  let e ← readMat E
  if e.length < k then newMat (e ++ List.replicate (k - e.length) (vzeros n)) else pure E

/-- Body of the collecting loop; `self.E_IMF[:k] += IMFs` in place.  /repo/PyEMD/CEEMDAN.py:363-367. -/
def accumulate (n E : Nat) (r : MatRef) : MemM α Nat := do
  let m ← readRef r
  let E ← grow n E m.length
  let e ← readMat E
  writeMat E (List.zipWith (fun a b => vadd a b) (e.take m.length) m ++ e.drop m.length)
  return E

/-- The collecting loop.  /repo/PyEMD/CEEMDAN.py:363-367. -/
def collect (fuel : Nat) (sp : SciPy α) (cfg : Cfg α) (ecfg : EMD.Cfg α) (noise : List MatRef) (S T n : Nat) (maxImf : Int) :
    List Nat → Nat → MemM α Nat
  | [], E => pure E
  | t :: ts, E => do
    let r ← trialUpdate fuel sp cfg ecfg noise S T maxImf t
    let E ← accumulate n E r
    collect fuel sp cfg ecfg noise S T n maxImf ts E

/-- `T`, or `np.arange(len(S))`.  /repo/PyEMD/CEEMDAN.py:344-345. -/
def timeArray (n : Nat) : Option Nat → MemM α Nat
  | some a => pure a
  | none => newVec ((List.range n).map (fun k : Nat => lit (k : ℚ)))

/-- `CEEMDAN._eemd(S, T, max_imf)`.  /repo/PyEMD/CEEMDAN.py:343-372. -/
def eemd (fuel : Nat) (sp : SciPy α) (cfg : Cfg α) (ecfg : EMD.Cfg α) (noise : List MatRef) (S : Nat) (T : Option Nat)
    (maxImf : Int) : MemM α Nat := do
  let s ← readVec S
  let T ← timeArray s.length T
  let E ← newMat [vzeros s.length]
  let E ← collect fuel sp cfg ecfg noise S T s.length maxImf (List.range cfg.trials) E
  if cfg.trials = 0 then py (.error .nonFinite)
  else
    let e ← readMat E
    newMat (e.map (fun r => vdiv r (lit (cfg.trials : ℚ))))

/-- The thresholds of `end_condition` for the residue `R`.  /repo/PyEMD/CEEMDAN.py:316-326. -/
def thresholds (cfg : Cfg α) (R : List α) : PyM Bool := do
  let mx ← npMaxE R
  let mn ← npMinE R
  if mx - mn < cfg.rangeThr then return true
  if npSum (R.map pyAbs) < cfg.totalPowerThr then return true
  return false

/-- `CEEMDAN.end_condition(S, cIMFs, max_imf)`.  /repo/PyEMD/CEEMDAN.py:278-326. -/
def endCondition (fuel : Nat) (sp : SciPy α) (cfg : Cfg α) (ecfg : EMD.Cfg α) (S : Nat) (cimfs : MatRef) (maxImf : Int) :
    MemM α Bool := do
  let c ← readRef cimfs
  if 0 < maxImf ∧ maxImf ≤ (c.length : Int) then return true
  else
    let s ← readVec S
    let R ← newVec (vsub s (sumRows s.length c))
    let test ← inner fuel sp ecfg R none 1
    if (← readRef test).length = 1 then return true
    else py (thresholds cfg (← readVec R))

/-- `if len(noise_imf) > imfNo: res += beta * noise_imf[imfNo]` in place.  /repo/PyEMD/CEEMDAN.py:254-255. -/
def addNoise (res : Nat) (beta : α) (k : Nat) (r : MatRef) : MemM α Unit := do
  match (← readRef r)[k]? with
  | some x => writeVec res (vadd (← readVec res) (vscale beta x))
  | none => pure ()

/-- `imfs[-1]`.  /repo/PyEMD/CEEMDAN.py:259. -/
def lastRow (imfs : List (List α)) : PyM (List α) :=
  match imfs.getLast? with
  | none => .error .indexError
  | some r => .ok r

/-- Body of the loop over the trials of a stage: `res = prev_res.copy()`, `local_mean += imfs[-1] / self.trials` in place.
/repo/PyEMD/CEEMDAN.py:250-259. -/
def stageTrial (fuel : Nat) (sp : SciPy α) (cfg : Cfg α) (ecfg : EMD.Cfg α) (prev : Nat) (T : Option Nat) (beta : α) (k lm : Nat)
    (r : MatRef) : MemM α Unit := do
  let res ← copyVec prev
  addNoise res beta k r
  let imfs ← inner fuel sp ecfg res T 1
  let last ← py (lastRow (← readRef imfs))
  writeVec lm (vadd (← readVec lm) (vdiv last (lit (cfg.trials : ℚ))))

/-- The loop over the trials of a stage.  /repo/PyEMD/CEEMDAN.py:250-259. -/
def stageTrials (fuel : Nat) (sp : SciPy α) (cfg : Cfg α) (ecfg : EMD.Cfg α) (prev : Nat) (T : Option Nat) (beta : α) (k lm : Nat) :
    List MatRef → MemM α Unit
  | [] => pure ()
  | r :: rs => do
    stageTrial fuel sp cfg ecfg prev T beta k lm r
    stageTrials fuel sp cfg ecfg prev T beta k lm rs

/-- `local_mean` of one stage.  /repo/PyEMD/CEEMDAN.py:246-259. -/
def localMean (std : List α → α) (fuel : Nat) (sp : SciPy α) (cfg : Cfg α) (ecfg : EMD.Cfg α) (noise : List MatRef) (prev : Nat)
    (T : Option Nat) (k : Nat) : MemM α Nat := do
  let p ← readVec prev
  let lm ← newVec (vzeros p.length)
  stageTrials fuel sp cfg ecfg prev T (cfg.epsilon * std p) k lm (noise.take cfg.trials)
  return lm

/-- The stage loop; `last_imf = prev_res - local_mean`, `all_cimfs = np.vstack(...)` and `prev_res = local_mean.copy()` are new
arrays.  /repo/PyEMD/CEEMDAN.py:240-263. -/
def stages (std : List α → α) (fuel : Nat) (sp : SciPy α) (cfg : Cfg α) (ecfg : EMD.Cfg α) (noise : List MatRef) (S : Nat)
    (T : Option Nat) (maxImf : Int) : Nat → MatRef → Nat → MemM α MatRef
  | 0, cimfs, _ => pure cimfs
  | n + 1, cimfs, prev => do
    let fin ← endCondition fuel sp cfg ecfg S cimfs maxImf
    if fin then pure cimfs
    else
      let c ← readRef cimfs
      let lm ← localMean std fuel sp cfg ecfg noise prev T c.length
      let last ← newVec (vsub (← readVec prev) (← readVec lm))
      let a ← newMat (c ++ [← readVec last])
      let prev ← copyVec lm
      stages std fuel sp cfg ecfg noise S T maxImf n { addr := a, rows := c.length + 1 } prev

/-- From the first component to the last row; `last_imf = self._eemd(...)[0]` and `all_cimfs = last_imf.reshape(...)` are views of
the array `_eemd` returned.  /repo/PyEMD/CEEMDAN.py:230-267. -/
def body (std : List α → α) (fuel : Nat) (sp : SciPy α) (cfg : Cfg α) (ecfg : EMD.Cfg α) (noise : List MatRef) (S : Nat)
    (T : Option Nat) (maxImf : Int) : MemM α Nat := do
  let E ← eemd fuel sp cfg ecfg noise S T 1
  let first ← py (firstRow (← readMat E))
  let s ← readVec S
  let prev ← newVec (vsub s first)
  let r ← stages std fuel sp cfg ecfg noise S T maxImf cfg.maxStages { addr := E, rows := 1 } prev
  let c ← readRef r
  newMat (c ++ [vsub s (sumRows s.length c)])

/-- The object: generator, configuration of the inner `EMD`, and the addresses of the arrays of `all_noises`, `all_noise_EMD`,
`C_IMF`, `residue`.  /repo/PyEMD/CEEMDAN.py:116-146. -/
structure Obj (α ρ : Type) where
  cfg : Cfg α
  random : ρ
  emd : EMD.Cfg α
  allNoises : List Nat
  allNoiseEMD : List MatRef
  C_IMF : Option Nat
  residue : Option Nat

/-- The rows of the array of noises.  /repo/PyEMD/CEEMDAN.py:224. -/
def newVecs : List (List α) → MemM α (List Nat)
  | [] => pure []
  | v :: vs => do
    let a ← newVec v
    let as ← newVecs vs
    return a :: as

/-- `all_cimfs * scale_s`, `self.residue = ...` and the array that is returned.  /repo/PyEMD/CEEMDAN.py:268-276. -/
def finish (scale : α) (S c : Nat) (h : Heap α) : Nat × Nat × Heap α :=
  let s := h.vecs[S]?.getD []
  let C := (h.mats[c]?.getD []).map (vscale scale)
  (h.mats.length, h.vecs.length,
    { vecs := h.vecs ++ [vsub (vscale scale s) (sumRows s.length C)], mats := h.mats ++ [C] })

/-- `CEEMDAN.ceemdan(S, T, max_imf)` in sequential mode for arrays at the addresses `S`, `T`; `S = S / scale_s` is a new array.
/repo/PyEMD/CEEMDAN.py:199-276. -/
def Obj.ceemdan (rng : Rng α ρ) (std : List α → α) (fuel : Nat) (sp : SciPy α) (o : Obj α ρ) (S : Nat) (T : Option Nat)
    (maxImf : Int) (h : Heap α) : PyM Nat × Obj α ρ × Heap α :=
  let s := h.vecs[S]?.getD []
  let scale := std s
  if scale == lit 0 then (.error .nonFinite, o, h)
  else
    let S := h.vecs.length
    let h := { h with vecs := h.vecs ++ [vdiv s scale] }
    match PyEMD.CEEMDAN.noises rng o.cfg o.random (vdiv s scale).length with
    | (.error e, r) => (.error e, { o with random := r }, h)
    | (.ok x, r) =>
      match newVecs x h with
      | (.error e, h) => (.error e, { o with random := r }, h)
      | (.ok as, h) =>
        let o := { o with random := r, allNoises := as }
        match decomposeNoise std fuel sp o.cfg o.emd as h with
        | (.error e, h) => (.error e, o, h)
        | (.ok noise, h) =>
          match body std fuel sp o.cfg o.emd noise S T maxImf h with
          | (.error e, h) => (.error e, { o with allNoiseEMD := noise }, h)
          | (.ok c, h) =>
            let f := finish scale S c h
            (.ok f.1, { o with allNoiseEMD := [], C_IMF := some f.1, residue := some f.2.1 }, f.2.2)

/-- `CEEMDAN.noise_seed(seed)`.  /repo/PyEMD/CEEMDAN.py:195-197. -/
def Obj.noiseSeed (rng : Rng α ρ) (o : Obj α ρ) (s : Int) : Obj α ρ := { o with random := rng.seed s }

/-- `CEEMDAN.get_imfs_and_residue()`: the stored arrays themselves.  /repo/PyEMD/CEEMDAN.py:388-395. -/
def Obj.getImfsAndResidue (o : Obj α ρ) : PyM (Nat × Nat) :=
  match o.C_IMF, o.residue with
  | some i, some r => .ok (i, r)
  | _, _ => .error .valueError

end CEEMDAN
end Mem
end PyEMD
