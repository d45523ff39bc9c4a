import Verif.Model.Init
import Verif.Model.Image

/-!
# `EMD2D(**config)` and what `emd` does with attributes of any type

`Model/Image.lean` starts from a record of numbers.  The constructor (/repo/PyEMD/EMD2d.py:50-63) stores what it is given without
looking at it; the values are compared with counters and arrays while an image is decomposed.
-/

namespace PyEMD
namespace InitImage

variable {α : Type} [Add α] [Sub α] [Mul α] [Div α] [Neg α] [LT α] [LE α] [BEq α]
  [DecidableLT α] [DecidableLE α] [NpScalar α]

/-- `self.__dict__` before the options are looked at.  /repo/PyEMD/EMD2d.py:52-58. -/
def defaults : Kwargs α :=
  [("mse_thr", .num (lit (1 / 100))), ("mean_thr", .num (lit (1 / 100))), ("FIXE", .int 0), ("FIXE_H", .int 0), ("MAX_ITERATION", .int 1000)]

/-- `self.__dict__[key] = value` for a key that is there.  /repo/PyEMD/EMD2d.py:63. -/
def assign (d : Kwargs α) (key : String) (v : Value α) : Kwargs α := d.map (fun p => if p.1 = key then (key, v) else p)

/-- `EMD2D(**config)`: the dictionary of the object.  /repo/PyEMD/EMD2d.py:50-63. -/
def new (config : Kwargs α) : Kwargs α :=
  config.foldl (fun d p => if d.any (fun q => q.1 = p.1) then assign d p.1 p.2 else d) defaults

/-- `self.name`.  /repo/PyEMD/EMD2d.py:259, 268, 273, 320, 339, 345, 354. -/
def attr (d : Kwargs α) (name : String) : PyM (Value α) :=
  match d.lookup name with
  | some v => .ok v
  | none => .error .attributeError

/-- `n < v` for a counter.  /repo/PyEMD/EMD2d.py:320. -/
def below (n : Nat) : Value α → PyM Bool
  | .bool b => .ok (decide (n < if b then 1 else 0))
  | .int z => .ok (decide ((n : Int) < z))
  | .num x => .ok (decide (lit (n : ℚ) < x))
  | _ => .error .typeError

/-- `n >= v + 1` for a counter.  /repo/PyEMD/EMD2d.py:340. -/
def beyond (n : Nat) : Value α → PyM Bool
  | .bool b => .ok (decide ((if b then 1 else 0) + 1 ≤ n))
  | .int z => .ok (decide (z + 1 ≤ (n : Int)))
  | .num x => .ok (decide (x + lit 1 ≤ lit (n : ℚ)))
  | _ => .error .typeError

/-- `n_h >= v` for a counter.  /repo/PyEMD/EMD2d.py:354. -/
def reached (n : Nat) : Value α → PyM Bool
  | .bool b => .ok (decide ((if b then 1 else 0) ≤ n))
  | .int z => .ok (decide (z ≤ (n : Int)))
  | .num x => .ok (decide (x ≤ lit (n : ℚ)))
  | _ => .error .typeError

/-- The number an array is compared with in `array < v`; numpy raises `TypeError` for strings, `None` and other objects.
/repo/PyEMD/EMD2d.py:259, 268, 273. -/
def threshold : Value α → PyM α
  | .bool b => .ok (if b then lit 1 else lit 0)
  | .int z => .ok (lit z)
  | .num x => .ok x
  | _ => .error .typeError

/-- `check_proto_imf`.  /repo/PyEMD/EMD2d.py:236-276. -/
def check (d : Kwargs α) (proto prev meanEnv : Img α) : PyM Bool := do
  let meanThr ← attr d "mean_thr" >>= threshold
  if (meanEnv.map (fun x => pyAbs (x - meanEnv.mean))).data.all (fun x => decide (x < meanThr)) then pure true
  else if proto.allclose (1 / 100000) prev then pure true
  else if (proto.map pyAbs).mean < meanThr then pure true
  else do
    let mseThr ← attr d "mse_thr" >>= threshold
    pure (decide ((proto.map (fun x => x * x)).mean < mseThr))

/-- The inner `while` loop.  /repo/PyEMD/EMD2d.py:320-364. -/
def sift (sbs : Surface α) (d : Kwargs α) : (fuel n nH : Nat) → (imf meanEnv : Img α) → PyM (Img α × Bool)
  | 0, _, _, _, _ => .error .outOfFuel
  | fuel + 1, n, nH, imf, meanEnv => do
    let more ← attr d "MAX_ITERATION" >>= below n
    if more then do
      let n := n + 1
      let e ← EMD2D.findExtrema imf
      if 4 < e.1.length ∧ 4 < e.2.length then do
        let imf := imf.sub meanEnv
        let env ← EMD2D.extractMaxMinSpline sbs imf
        let meanEnv := (env.1.add env.2).map (fun x => lit (1 / 2) * x)
        let imf_old := imf
        let imf := imf.sub meanEnv
        let FIXE ← attr d "FIXE"
        if Init.pyBool FIXE then do
          let stop ← beyond n FIXE
          if stop then pure (imf, true) else sift sbs d fuel n nH imf meanEnv
        else do
          let FIXE_H ← attr d "FIXE_H"
          if Init.pyBool FIXE_H then
            if n = 1 then sift sbs d fuel n nH imf meanEnv
            else do
              let isImf ← check d imf imf_old meanEnv
              let nH := if isImf then nH + 1 else 0
              let stop ← reached nH FIXE_H
              if stop then pure (imf, true) else sift sbs d fuel n nH imf meanEnv
          else do
            let isImf ← check d imf imf_old meanEnv
            if isImf then pure (imf, true) else sift sbs d fuel n nH imf meanEnv
      else pure (imf, false)
    else pure (imf, true)

/-- The outer `while` loop; `k` bounds the iterations of one sifting.  /repo/PyEMD/EMD2d.py:308-371. -/
def loop (sbs : Surface α) (d : Kwargs α) (k : Nat) (image image_s : Img α) (maxImf : Int) : (fuel : Nat) → (imfs : List (Img α)) → PyM (List (Img α))
  | 0, _ => .error .outOfFuel
  | fuel + 1, imfs => do
    let res := image_s.sub (Img.sum image.rows image.cols imfs)
    let r ← sift sbs d k 0 0 res (Img.zeros image.rows image.cols)
    let imfs := imfs ++ [r.1]
    if EMD2D.endCondition image imfs ∨ (0 < maxImf ∧ maxImf ≤ imfs.length) then .ok imfs
    else if r.2 then loop sbs d k image image_s maxImf fuel imfs
    else .ok imfs

/-- `emd(image, max_imf)`, as in `EMD2D.emd`.  /repo/PyEMD/EMD2d.py:278-380. -/
def emd (sbs : Surface α) (fuel k : Nat) (d : Kwargs α) (image : Img α) (maxImf : Int) : PyM (List (Img α)) := do
  let image_min ← npMinE image.data
  let image_max ← npMaxE image.data
  let offset := image_min
  let scale := image_max - image_min
  if scale == lit 0 then .error .nonFinite else do
    let image_s := image.map (fun x => (x - offset) / scale)
    let imfs ← loop sbs d k image image_s maxImf fuel []
    let res := image_s.sub (Img.sum image.rows image.cols imfs)
    let imfs := if allclose0 res.data then imfs else imfs ++ [res]
    let imfs := imfs.map (fun im => im.map (fun x => x * scale))
    pure (EMD2D.addLast offset imfs)

end InitImage
end PyEMD
