import Verif.Model.Py

/-!
# `PyEMD/EMD2d.py` and `PyEMD/BEMD.py`

A 2-D array is its shape and its entries in C order (as numpy stores it).  `SmoothBivariateSpline`, `Rbf` and skimage's
`reconstruction` are parameters: the interpolators take the positions and values of the points and give a function of the
(integer) grid coordinates, or raise.
-/

namespace PyEMD

/-- A 2-D numpy array, the argument `image`.  /repo/PyEMD/EMD2d.py:68-73, 98-105. -/
structure Img (α : Type) where
  rows : Nat
  cols : Nat
  data : List α
  deriving DecidableEq, Repr

namespace Img

variable {α : Type} [Add α] [Sub α] [Mul α] [Div α] [Neg α] [LT α] [LE α] [BEq α]
  [DecidableLT α] [DecidableLE α] [NpScalar α]

/-- `image[r, c]` (inside the array).  /repo/PyEMD/EMD2d.py:90-91. -/
def px (im : Img α) (r c : Nat) : α := im.data.getD (r * im.cols + c) (lit 0)

/-- The array of the given shape with entry `f r c` at `[r, c]`.  /repo/PyEMD/EMD2d.py:118-150. -/
def ofFn (rows cols : Nat) (f : Nat → Nat → α) : Img α :=
  { rows, cols, data := (List.range rows).flatMap (fun r => (List.range cols).map (fun c => f r c)) }

/-- Pointwise operation on one array.  /repo/PyEMD/EMD2d.py:190, 299, 378. -/
def map (f : α → α) (im : Img α) : Img α := { im with data := im.data.map f }

/-- `a - b` for arrays of the same shape.  /repo/PyEMD/EMD2d.py:329, 336. -/
def sub (a b : Img α) : Img α := { a with data := vsub a.data b.data }

/-- `a + b` for arrays of the same shape.  /repo/PyEMD/EMD2d.py:333. -/
def add (a b : Img α) : Img α := { a with data := vadd a.data b.data }

/-- `np.zeros(image.shape)`.  /repo/PyEMD/EMD2d.py:301, 313. -/
def zeros (rows cols : Nat) : Img α := { rows, cols, data := vzeros (rows * cols) }

/-- `np.sum(IMFs, axis=0)` for arrays of the given shape.  /repo/PyEMD/EMD2d.py:228, 311. -/
def sum (rows cols : Nat) (ims : List (Img α)) : Img α := { rows, cols, data := sumRows (rows * cols) (ims.map (·.data)) }

/-- `np.fliplr(image)`.  /repo/PyEMD/EMD2d.py:120, 123. -/
def fliplr (im : Img α) : Img α := ofFn im.rows im.cols (fun r c => im.px r (im.cols - 1 - c))

/-- `np.flipud(image)`.  /repo/PyEMD/EMD2d.py:121, 122. -/
def flipud (im : Img α) : Img α := ofFn im.rows im.cols (fun r c => im.px (im.rows - 1 - r) c)

/-- `np.mean(image)`.  /repo/PyEMD/EMD2d.py:259, 268, 272. -/
def mean (im : Img α) : α := npSum im.data / lit (im.data.length : ℚ)

/-- `np.allclose(a, b, rtol)` with the default `atol = 1e-8`: `|a - b| <= atol + rtol * |b|` everywhere.
/repo/PyEMD/EMD2d.py:231, 264; /repo/PyEMD/BEMD.py:170. -/
def allclose (rtol : ℚ) (a b : Img α) : Bool :=
  (List.zip a.data b.data).all (fun p => decide (pyAbs (p.1 - p.2) ≤ lit (1 / 100000000) + lit rtol * pyAbs p.2))

end Img

/-- Options of `EMD2D` and `BEMD`.  /repo/PyEMD/EMD2d.py:50-63; /repo/PyEMD/BEMD.py:47-54.  Simplification: natural numbers. -/
structure Cfg2 (α : Type) where
  mseThr : α
  meanThr : α
  FIXE : Nat
  FIXE_H : Nat
  MAX_ITERATION : Nat

/-- An interpolator: positions `X`, `Y` and values `Z` of the points give a surface (`SmoothBivariateSpline`, `Rbf`).
/repo/PyEMD/EMD2d.py:161-163; /repo/PyEMD/BEMD.py:87-88. -/
abbrev Surface (α : Type) := List Nat → List Nat → List α → PyM (Nat → Nat → α)

namespace EMD2D

variable {α : Type} [Add α] [Sub α] [Mul α] [Div α] [Neg α] [LT α] [LE α] [BEq α]
  [DecidableLT α] [DecidableLE α] [NpScalar α]

/-- Default options.  /repo/PyEMD/EMD2d.py:52-58. -/
def Cfg.default : Cfg2 α := { mseThr := lit (1 / 100), meanThr := lit (1 / 100), FIXE := 0, FIXE_H := 0, MAX_ITERATION := 1000 }

/-- `prepare_image(image)`.  The block assignments fill disjoint blocks of the `3 rows × 3 cols` array; entry `[r, c]` lies in
block `(r / rows, c / cols)` at offset `(r % rows, c % cols)`.  /repo/PyEMD/EMD2d.py:98-152. -/
def prepareImage (image : Img α) : Img α :=
  let image_lr := image.fliplr
  let image_ud := image.flipud
  let image_ud_lr := image_lr.flipud
  let image_lr_ud := image_ud.fliplr
  Img.ofFn (image.rows * 3) (image.cols * 3) (fun r c =>
    let i := r % image.rows
    let j := c % image.cols
    match r / image.rows, c / image.cols with
    | 1, 1 => image.px i j
    | 1, 0 => image_lr.px i j
    | 1, 2 => image_lr.px i j
    | 0, 1 => image_ud.px i j
    | 2, 1 => image_ud.px i j
    | 0, 0 => image_ud_lr.px i j
    | 2, 0 => image_ud_lr.px i j
    | 0, 2 => image_lr_ud.px i j
    | 2, 2 => image_lr_ud.px i j
    | _, _ => lit 0)

/-- The nine entries under the 3×3 footprint at `[r, c]`; scipy's default boundary mode `reflect` repeats the border entry.
/repo/PyEMD/EMD2d.py:186-191. -/
def window (image : Img α) (r c : Nat) : List α :=
  let rs := [r - 1, r, min (r + 1) (image.rows - 1)]
  let cs := [c - 1, c, min (c + 1) (image.cols - 1)]
  rs.flatMap (fun i => cs.map (fun j => image.px i j))

/-- `maximum_filter(image, footprint=neighborhood) == image` at `[r, c]`.  /repo/PyEMD/EMD2d.py:190-191. -/
def isLocalMax (image : Img α) (r c : Nat) : Bool := npMax (window image r c) == image.px r c

/-- Positions, in C order, of the entries of a mask after `peaks[[0, -1], :] = False` and `peaks[:, [0, -1]] = False`.
/repo/PyEMD/EMD2d.py:206-212. -/
def peaks (rows cols : Nat) (mask : Nat → Nat → Bool) : List (Nat × Nat) :=
  ((List.range rows).flatMap (fun r => (List.range cols).map (fun c => (r, c)))).filter (fun p =>
    mask p.1 p.2 && !(p.1 == 0 || p.1 == rows - 1) && !(p.2 == 0 || p.2 == cols - 1))

/-- `find_extrema(image)`: positions of minima and of maxima.  The masks computed from `eroded_background` are overwritten
before use and left out.  /repo/PyEMD/EMD2d.py:166-214.  An empty array raises `IndexError` at line 206. -/
def findExtrema (image : Img α) : PyM (List (Nat × Nat) × List (Nat × Nat)) :=
  if image.rows = 0 ∨ image.cols = 0 then .error .indexError
  else .ok (peaks image.rows image.cols (isLocalMax (image.map (fun x => -x))), peaks image.rows image.cols (isLocalMax image))

/-- `spline_points` for the grid `xi`, `yi` of consecutive integers starting at `x0`, `y0`.  /repo/PyEMD/EMD2d.py:155-163, 87-88. -/
def splinePoints (sbs : Surface α) (big : Img α) (pos : List (Nat × Nat)) (rows cols : Nat) : PyM (Img α) := do
  let s ← sbs (pos.map (·.1)) (pos.map (·.2)) (pos.map (fun p => big.px p.1 p.2))
  pure (Img.ofFn rows cols (fun i j => s (rows + i) (cols + j)))

/-- `extract_max_min_spline(image)`.  /repo/PyEMD/EMD2d.py:68-95. -/
def extractMaxMinSpline (sbs : Surface α) (image : Img α) : PyM (Img α × Img α) := do
  let big := prepareImage image
  let e ← findExtrema big
  let minEnv ← splinePoints sbs big e.1 image.rows image.cols
  let maxEnv ← splinePoints sbs big e.2 image.rows image.cols
  pure (minEnv, maxEnv)

/-- `end_condition(image, IMFs)`.  /repo/PyEMD/EMD2d.py:217-234. -/
def endCondition (image : Img α) (imfs : List (Img α)) : Bool :=
  image.allclose (1 / 100000) (Img.sum image.rows image.cols imfs)

/-- `check_proto_imf(proto_imf, proto_imf_prev, mean_env)`.  /repo/PyEMD/EMD2d.py:236-276. -/
def checkProtoImf (cfg : Cfg2 α) (proto prev meanEnv : Img α) : Bool :=
  if (meanEnv.map (fun x => pyAbs (x - meanEnv.mean))).data.all (fun x => decide (x < cfg.meanThr)) then true
  else if proto.allclose (1 / 100000) prev then true
  else if (proto.map pyAbs).mean < cfg.meanThr then true
  else if (proto.map (fun x => x * x)).mean < cfg.mseThr then true
  else false

/-- The inner `while` loop with `k` iterations left before `MAX_ITERATION`: the proto-IMF and `notFinished`.
/repo/PyEMD/EMD2d.py:320-364. -/
def sift (sbs : Surface α) (cfg : Cfg2 α) : (k n nH : Nat) → (imf meanEnv : Img α) → PyM (Img α × Bool)
  | 0, _, _, imf, _ => .ok (imf, true)
  | k + 1, n, nH, imf, meanEnv => do
    let n := n + 1
    let e ← findExtrema imf
    if 4 < e.1.length ∧ 4 < e.2.length then do
      let imf := imf.sub meanEnv
      let env ← extractMaxMinSpline sbs imf
      let meanEnv := (env.1.add env.2).map (fun x => lit (1 / 2) * x)
      let imf_old := imf
      let imf := imf.sub meanEnv
      if cfg.FIXE ≠ 0 then
        if cfg.FIXE + 1 ≤ n then .ok (imf, true) else sift sbs cfg k n nH imf meanEnv
      else if cfg.FIXE_H ≠ 0 then
        if n = 1 then sift sbs cfg k n nH imf meanEnv
        else
          let nH := if checkProtoImf cfg imf imf_old meanEnv then nH + 1 else 0
          if cfg.FIXE_H ≤ nH then .ok (imf, true) else sift sbs cfg k n nH imf meanEnv
      else
        if checkProtoImf cfg imf imf_old meanEnv then .ok (imf, true) else sift sbs cfg k n nH imf meanEnv
    else .ok (imf, false)

/-- The outer `while` loop.  /repo/PyEMD/EMD2d.py:308-371. -/
def loop (sbs : Surface α) (cfg : Cfg2 α) (image image_s : Img α) (maxImf : Int) : (fuel : Nat) → (imfs : List (Img α)) → PyM (List (Img α))
  | 0, _ => .error .outOfFuel
  | fuel + 1, imfs => do
    let res := image_s.sub (Img.sum image.rows image.cols imfs)
    let r ← sift sbs cfg cfg.MAX_ITERATION 0 0 res (Img.zeros image.rows image.cols)
    let imfs := imfs ++ [r.1]
    if endCondition image imfs ∨ (0 < maxImf ∧ maxImf ≤ imfs.length) then .ok imfs
    else if r.2 then loop sbs cfg image image_s maxImf fuel imfs
    else .ok imfs

/-- `IMF[-1] += offset`.  /repo/PyEMD/EMD2d.py:379. -/
def addLast (offset : α) : List (Img α) → List (Img α)
  | [] => []
  | [x] => [x.map (fun v => v + offset)]
  | x :: xs => x :: addLast offset xs

/-- `emd(image, max_imf)`; a constant image (scale 0, numpy: all NaN) is the pseudo-exception `nonFinite`.
/repo/PyEMD/EMD2d.py:278-380. -/
def emd (sbs : Surface α) (fuel : Nat) (cfg : Cfg2 α) (image : Img α) (maxImf : Int) : PyM (List (Img α)) := do
  let image_min ← npMinE image.data
  let image_max ← npMaxE image.data
  let offset := image_min
  let scale := image_max - image_min
  if scale == lit 0 then .error .nonFinite else do
    let image_s := image.map (fun x => (x - offset) / scale)
    let imfs ← loop sbs cfg image image_s maxImf fuel []
    let res := image_s.sub (Img.sum image.rows image.cols imfs)
    let imfs := if allclose0 res.data then imfs else imfs ++ [res]
    let imfs := imfs.map (fun im => im.map (fun x => x * scale))
    pure (addLast offset imfs)

end EMD2D

namespace BEMD

variable {α : Type} [Add α] [Sub α] [Mul α] [Div α] [Neg α] [LT α] [LE α] [BEq α]
  [DecidableLT α] [DecidableLE α] [NpScalar α]

/-- Default options.  /repo/PyEMD/BEMD.py:49-54. -/
def Cfg.default : Cfg2 α := { mseThr := lit (1 / 100), meanThr := lit (1 / 100), FIXE := 1, FIXE_H := 0, MAX_ITERATION := 5 }

/-- External code: skimage's `reconstruction(seed, mask, method="dilation")` and scipy's `Rbf`.  Simplification: `reconstruction` is
total; skimage raises `ValueError` for an image without pixels.
/repo/PyEMD/BEMD.py:12-15, 87, 119. -/
structure Ext (α : Type) where
  reconstruction : Img α → Img α → Img α
  rbf : Surface α

/-- `extract_maxima_positions(image)`: `np.where` gives rows and columns, `[::-1]` exchanges them.  /repo/PyEMD/BEMD.py:117-121. -/
def extractMaximaPositions (ext : Ext α) (image : Img α) : List (Nat × Nat) :=
  let seed_min := image.map (fun x => x - lit 1)
  let dilated := ext.reconstruction seed_min image
  let cleaned := image.sub dilated
  (((List.range image.rows).flatMap (fun r => (List.range image.cols).map (fun c => (r, c)))).filter
    (fun p => decide (lit 0 < cleaned.px p.1 p.2))).map (fun p => (p.2, p.1))

/-- `extract_minima_positions(image)`.  /repo/PyEMD/BEMD.py:113-114. -/
def extractMinimaPositions (ext : Ext α) (image : Img α) : List (Nat × Nat) :=
  extractMaximaPositions ext (image.map (fun x => -x))

/-- `image[peaks_pos]`: the first component of a position is the row index.  /repo/PyEMD/BEMD.py:74-75. -/
def valuesAt (image : Img α) : List (Nat × Nat) → PyM (List α)
  | [] => .ok []
  | p :: ps => do
    if image.rows ≤ p.1 ∨ image.cols ≤ p.2 then .error .indexError
    else do
      let vs ← valuesAt image ps
      pure (image.px p.1 p.2 :: vs)

/-- `spline_points` on `np.meshgrid(np.arange(rows), np.arange(cols))`, which has shape `(cols, rows)` and holds `(i, j)` at
`[j, i]`.  /repo/PyEMD/BEMD.py:73, 81-88. -/
def splinePoints (ext : Ext α) (pos : List (Nat × Nat)) (vals : List α) (rows cols : Nat) : PyM (Img α) := do
  let s ← ext.rbf (pos.map (·.1)) (pos.map (·.2)) vals
  pure (Img.ofFn cols rows (fun j i => s i j))

/-- `extract_max_min_spline(image, min_peaks_pos, max_peaks_pos)`.  /repo/PyEMD/BEMD.py:59-78. -/
def extractMaxMinSpline (ext : Ext α) (image : Img α) (minPos maxPos : List (Nat × Nat)) : PyM (Img α × Img α) := do
  let minVal ← valuesAt image minPos
  let maxVal ← valuesAt image maxPos
  let minEnv ← splinePoints ext minPos minVal image.rows image.cols
  let maxEnv ← splinePoints ext maxPos maxVal image.rows image.cols
  pure (minEnv, maxEnv)

/-- `check_proto_imf(proto_imf, proto_imf_prev, mean_env)`.  /repo/PyEMD/BEMD.py:143-182. -/
def checkProtoImf (cfg : Cfg2 α) (proto prev meanEnv : Img α) : Bool :=
  if (meanEnv.map (fun x => pyAbs (x - meanEnv.mean))).data.all (fun x => decide (x < cfg.meanThr)) then true
  else if proto.allclose (1 / 100) prev then true
  else if (proto.map pyAbs).mean < cfg.meanThr then true
  else false

/-- The inner `while` loop with `k` iterations left before `MAX_ITERATION`.  An envelope whose shape differs
from the image raises `ValueError` at the subtraction (numpy would broadcast a single row or column, but such images fail before, at
`image[positions]`, since two different positions do not fit).  /repo/PyEMD/BEMD.py:222-262, with `find_extrema_positions` of /repo/PyEMD/BEMD.py:90-110. -/
def sift (ext : Ext α) (cfg : Cfg2 α) : (k n nH : Nat) → (imf : Img α) → PyM (Img α)
  | 0, _, _, imf => .ok imf
  | k + 1, n, nH, imf => do
    let n := n + 1
    let minPos := extractMinimaPositions ext imf
    let maxPos := extractMaximaPositions ext imf
    if 1 < minPos.length ∧ 1 < maxPos.length then do
      let env ← extractMaxMinSpline ext imf minPos maxPos
      let meanEnv := (env.1.add env.2).map (fun x => lit (1 / 2) * x)
      if meanEnv.rows ≠ imf.rows ∨ meanEnv.cols ≠ imf.cols then .error .valueError
      else
        let imf_old := imf
        let imf := imf.sub meanEnv
        if cfg.FIXE ≠ 0 then
          if cfg.FIXE + 1 ≤ n then .ok imf else sift ext cfg k n nH imf
        else if cfg.FIXE_H ≠ 0 then
          if n = 1 then sift ext cfg k n nH imf
          else
            let nH := if checkProtoImf cfg imf imf_old meanEnv then nH + 1 else 0
            if cfg.FIXE_H ≤ nH then .ok imf else sift ext cfg k n nH imf
        else
          if checkProtoImf cfg imf imf_old meanEnv then .ok imf else sift ext cfg k n nH imf
    else .ok imf

/-- The outer `while` loop.  /repo/PyEMD/BEMD.py:210-269, with `end_condition` of /repo/PyEMD/BEMD.py:123-141. -/
def loop (ext : Ext α) (cfg : Cfg2 α) (image : Img α) (maxImf : Int) : (fuel : Nat) → (imfs : List (Img α)) → PyM (List (Img α))
  | 0, _ => .error .outOfFuel
  | fuel + 1, imfs => do
    let res := image.sub (Img.sum image.rows image.cols imfs)
    let imf ← sift ext cfg cfg.MAX_ITERATION 0 0 res
    let imfs := imfs ++ [imf]
    if image.allclose (1 / 100000) (Img.sum image.rows image.cols imfs) ∨ (0 < maxImf ∧ maxImf ≤ imfs.length) then .ok imfs
    else loop ext cfg image maxImf fuel imfs

/-- `bemd(image, max_imf)`.  /repo/PyEMD/BEMD.py:184-276. -/
def bemd (ext : Ext α) (fuel : Nat) (cfg : Cfg2 α) (image : Img α) (maxImf : Int) : PyM (List (Img α)) := do
  let imfs ← loop ext cfg image maxImf fuel []
  let res := image.sub (Img.sum image.rows image.cols imfs)
  pure (if allclose0 res.data then imfs else imfs ++ [res])

end BEMD
end PyEMD
