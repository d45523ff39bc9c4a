import Verif.Model.Image

/-!
# `EMD2D.emd` and `BEMD.bemd` with arrays in memory

As `Model/Memory.lean`, for images: arrays live in a memory, variables hold addresses, every statement of /repo/PyEMD/EMD2d.py:278-380 and
/repo/PyEMD/BEMD.py:184-276 that creates, copies or writes an array is one operation on the memory.

Simplified: methods that only read their arguments (`find_extrema`, `extract_max_min_spline`, `check_proto_imf`, `end_condition`) are applied to the
contents; what they create besides their results (masks of peaks, the mirrored image) are temporaries nobody else refers to.  Images and stacks of
images (three-dimensional arrays) have separate addresses; views such as `IMF[:imfNo]` and `imf[None, :]` do not outlive their statement.
-/

namespace PyEMD
namespace MemImg

/-- The memory: images and stacks of images created so far, and those of the caller.  /repo/PyEMD/EMD2d.py:278-380. -/
structure Heap (α : Type) where
  imgs : List (Img α)
  cubes : List (List (Img α))

/-- A computation with memory that may raise; the memory survives the exception.  /repo/PyEMD/EMD2d.py:295-380. -/
def MemM (α β : Type) : Type := Heap α → PyM β × Heap α

/-- Sequencing of statements; an exception skips the rest. -/
instance {α : Type} : Monad (MemM α) where
  pure b := fun h => (.ok b, h)
  bind m f := fun h =>
    match m h with
    | (.ok b, h') => f b h'
    | (.error e, h') => (.error e, h')

section Ops
variable {α β : Type}

/-- A statement that touches no array in memory but may raise, e.g. /repo/PyEMD/EMD2d.py:324. -/
def py (p : PyM β) : MemM α β := fun h => (p, h)

/-- A new image, e.g. /repo/PyEMD/EMD2d.py:301, 311. -/
def newImg (v : Img α) : MemM α Nat := fun h => (.ok h.imgs.length, { h with imgs := h.imgs ++ [v] })

/-- A new stack of images: `np.empty`, `np.vstack`, `IMF * scale`.  /repo/PyEMD/EMD2d.py:305, 366, 378. -/
def newStack (v : List (Img α)) : MemM α Nat := fun h => (.ok h.cubes.length, { h with cubes := h.cubes ++ [v] })

/-- The contents of an image (every reading use, e.g. /repo/PyEMD/EMD2d.py:311). -/
def readImg (a : Nat) : MemM α (Img α) := fun h => (.ok (h.imgs[a]?.getD ⟨0, 0, []⟩), h)

/-- The contents of a stack (every reading use, e.g. /repo/PyEMD/EMD2d.py:311). -/
def readStack (a : Nat) : MemM α (List (Img α)) := fun h => (.ok (h.cubes[a]?.getD []), h)

/-- Overwrites a stack in place: the store of `IMF[-1] += offset`.  /repo/PyEMD/EMD2d.py:379. -/
def writeStack (a : Nat) (v : List (Img α)) : MemM α Unit := fun h => (.ok (), { h with cubes := h.cubes.set a v })

/-- `x.copy()`.  /repo/PyEMD/EMD2d.py:302, 312, 328, 335. -/
def copyImg (a : Nat) : MemM α Nat := do newImg (← readImg a)

end Ops

variable {α : Type} [Add α] [Sub α] [Mul α] [Div α] [Neg α] [LT α] [LE α] [BEq α]
  [DecidableLT α] [DecidableLE α] [NpScalar α]

namespace EMD2D
open PyEMD.EMD2D

/-- The inner loop: the addresses of `imf` and of `mean_env` go round; result is the address of `imf` and `notFinished`.
/repo/PyEMD/EMD2d.py:320-364. -/
def sift (sbs : Surface α) (cfg : Cfg2 α) : (k n nH imf meanEnv : Nat) → MemM α (Nat × Bool)
  | 0, _, _, imf, _ => return (imf, true)
  | k + 1, n, nH, imf, meanEnv => do
    let n := n + 1
    let e ← py (findExtrema (← readImg imf))
    if 4 < e.1.length ∧ 4 < e.2.length then
      let _imf_old ← copyImg imf
      let imf ← newImg ((← readImg imf).sub (← readImg meanEnv))
      let env ← py (extractMaxMinSpline sbs (← readImg imf))
      let meanEnv ← newImg ((env.1.add env.2).map (fun x => lit (1 / 2) * x))
      let imf_old ← copyImg imf
      let imf ← newImg ((← readImg imf).sub (← readImg meanEnv))
      if cfg.FIXE ≠ 0 then
        if cfg.FIXE + 1 ≤ n then return (imf, true) else sift sbs cfg k n nH imf meanEnv
      else if cfg.FIXE_H ≠ 0 then
        if n = 1 then sift sbs cfg k n nH imf meanEnv
        else
          let nH := if checkProtoImf cfg (← readImg imf) (← readImg imf_old) (← readImg meanEnv) then nH + 1 else 0
          if cfg.FIXE_H ≤ nH then return (imf, true) else sift sbs cfg k n nH imf meanEnv
      else
        if checkProtoImf cfg (← readImg imf) (← readImg imf_old) (← readImg meanEnv) then return (imf, true)
        else sift sbs cfg k n nH imf meanEnv
    else return (imf, false)

/-- The outer loop; `np.vstack` creates a new array.  Result is the address of `IMF`.  /repo/PyEMD/EMD2d.py:308-371. -/
def loop (sbs : Surface α) (cfg : Cfg2 α) (image image_s : Nat) (maxImf : Int) : (fuel IMF : Nat) → MemM α Nat
  | 0, _ => py (.error .outOfFuel)
  | fuel + 1, IMF => do
    let im ← readImg image
    let res ← newImg ((← readImg image_s).sub (Img.sum im.rows im.cols (← readStack IMF)))
    let imf ← copyImg res
    let meanEnv ← newImg (Img.zeros im.rows im.cols)
    let r ← sift sbs cfg cfg.MAX_ITERATION 0 0 imf meanEnv
    let c ← copyImg r.1
    let IMF ← newStack ((← readStack IMF) ++ [← readImg c])
    let im ← readImg image
    let imfs ← readStack IMF
    if endCondition im imfs ∨ (0 < maxImf ∧ maxImf ≤ imfs.length) then return IMF
    else if r.2 then loop sbs cfg image image_s maxImf fuel IMF
    else return IMF

/-- After the loop: the rest is appended, the stack is scaled (a new array) and the offset added in place.  /repo/PyEMD/EMD2d.py:373-380. -/
def finish (image image_s IMF : Nat) (scale offset : α) : MemM α Nat := do
  let im ← readImg image
  let res ← newImg ((← readImg image_s).sub (Img.sum im.rows im.cols (← readStack IMF)))
  let r ← readImg res
  let IMF ← if allclose0 r.data then pure IMF else newStack ((← readStack IMF) ++ [r])
  let IMF ← newStack ((← readStack IMF).map (fun im => im.map (fun x => x * scale)))
  writeStack IMF (addLast offset (← readStack IMF))
  return IMF

/-- `emd(image, max_imf)`: the address of the array returned.  /repo/PyEMD/EMD2d.py:278-380. -/
def emd (sbs : Surface α) (fuel : Nat) (cfg : Cfg2 α) (image : Nat) (maxImf : Int) : MemM α Nat := do
  let im ← readImg image
  let image_min ← py (npMinE im.data)
  let image_max ← py (npMaxE im.data)
  let offset := image_min
  let scale := image_max - image_min
  if scale == lit 0 then py (.error .nonFinite)
  else
    let image_s ← newImg (im.map (fun x => (x - offset) / scale))
    let imf ← newImg (Img.zeros im.rows im.cols)
    let _imf_old ← copyImg imf
    let IMF ← newStack []
    let IMF ← loop sbs cfg image image_s maxImf fuel IMF
    finish image image_s IMF scale offset

end EMD2D

namespace BEMD
open PyEMD.BEMD

/-- The inner loop: result is the address of `imf`.  /repo/PyEMD/BEMD.py:222-262. -/
def sift (ext : Ext α) (cfg : Cfg2 α) : (k n nH imf : Nat) → MemM α Nat
  | 0, _, _, imf => return imf
  | k + 1, n, nH, imf => do
    let n := n + 1
    let minPos := extractMinimaPositions ext (← readImg imf)
    let maxPos := extractMaximaPositions ext (← readImg imf)
    if 1 < minPos.length ∧ 1 < maxPos.length then
      let env ← py (extractMaxMinSpline ext (← readImg imf) minPos maxPos)
      let meanEnv ← newImg ((env.1.add env.2).map (fun x => lit (1 / 2) * x))
      let m ← readImg meanEnv
      let i ← readImg imf
      if m.rows ≠ i.rows ∨ m.cols ≠ i.cols then py (.error .valueError)
      else
        let imf_old ← copyImg imf
        let imf ← newImg ((← readImg imf).sub (← readImg meanEnv))
        if cfg.FIXE ≠ 0 then
          if cfg.FIXE + 1 ≤ n then return imf else sift ext cfg k n nH imf
        else if cfg.FIXE_H ≠ 0 then
          if n = 1 then sift ext cfg k n nH imf
          else
            let nH := if checkProtoImf cfg (← readImg imf) (← readImg imf_old) (← readImg meanEnv) then nH + 1 else 0
            if cfg.FIXE_H ≤ nH then return imf else sift ext cfg k n nH imf
        else
          if checkProtoImf cfg (← readImg imf) (← readImg imf_old) (← readImg meanEnv) then return imf
          else sift ext cfg k n nH imf
    else return imf

/-- The outer loop; `np.vstack` creates a new array.  Result is the address of `IMF`.  /repo/PyEMD/BEMD.py:210-269. -/
def loop (ext : Ext α) (cfg : Cfg2 α) (image image_s : Nat) (maxImf : Int) : (fuel IMF : Nat) → MemM α Nat
  | 0, _ => py (.error .outOfFuel)
  | fuel + 1, IMF => do
    let im ← readImg image
    let res ← newImg ((← readImg image_s).sub (Img.sum im.rows im.cols (← readStack IMF)))
    let imf ← copyImg res
    let _meanEnv ← newImg (Img.zeros im.rows im.cols)
    let imf ← sift ext cfg cfg.MAX_ITERATION 0 0 imf
    let c ← copyImg imf
    let IMF ← newStack ((← readStack IMF) ++ [← readImg c])
    let im ← readImg image
    let imfs ← readStack IMF
    if im.allclose (1 / 100000) (Img.sum im.rows im.cols imfs) ∨ (0 < maxImf ∧ maxImf ≤ imfs.length) then return IMF
    else loop ext cfg image image_s maxImf fuel IMF

/-- `bemd(image, max_imf)`: the address of the array returned.  /repo/PyEMD/BEMD.py:184-276. -/
def bemd (ext : Ext α) (fuel : Nat) (cfg : Cfg2 α) (image : Nat) (maxImf : Int) : MemM α Nat := do
  let image_s ← copyImg image
  let im ← readImg image
  let imf ← newImg (Img.zeros im.rows im.cols)
  let _imf_old ← copyImg imf
  let IMF ← newStack []
  let IMF ← loop ext cfg image image_s maxImf fuel IMF
  let im ← readImg image
  let res ← newImg ((← readImg image_s).sub (Img.sum im.rows im.cols (← readStack IMF)))
  let r ← readImg res
  if allclose0 r.data then return IMF else newStack ((← readStack IMF) ++ [r])

end BEMD
end MemImg
end PyEMD
