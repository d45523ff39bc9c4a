import Verif.Model.Eemd
import Verif.Model.Image

/-!
# Integer samples in `EEMD` and `EMD2D`

`Verif/Model/Eemd.lean` and `Verif/Model/Image.lean` compute with numbers that do not overflow.  `np.max(S) - np.min(S)` of an
integer array is an integer of the same type, and so is `image - offset`; both wrap around.  Here are the statements concerned
once more, for arrays of integers.  What follows them works on floats (`S + noise`, `(image - offset) / scale`).
-/

namespace PyEMD

/-- numpy's integer types of `w` bits (`int8` to `int64`, `uint8` to `uint64`), as samples of /repo/PyEMD/EEMD.py:155 and
/repo/PyEMD/EMD2d.py:278. -/
inductive IntType
  | signed (w : Nat)
  | unsigned (w : Nat)
  deriving DecidableEq, Repr

namespace IntType

/-- The value of the type that is congruent modulo `2 ^ w`: what integer arithmetic of numpy stores (e.g. /repo/PyEMD/EEMD.py:185). -/
def wrap : IntType → Int → Int
  | .signed w, x => (x + 2 ^ (w - 1)) % 2 ^ w - 2 ^ (w - 1)
  | .unsigned w, x => x % 2 ^ w

/-- `a - b`.  /repo/PyEMD/EEMD.py:185, /repo/PyEMD/EMD2d.py:297-299. -/
def sub (t : IntType) (a b : Int) : Int := t.wrap (a - b)

/-- `np.abs(x)`; the absolute value of the smallest number of a signed type is that number.  /repo/PyEMD/EEMD.py:185. -/
def abs (t : IntType) (x : Int) : Int := t.wrap |x|

end IntType

/-- `np.max` of an array of integers.  /repo/PyEMD/EEMD.py:185, /repo/PyEMD/EMD2d.py:295. -/
def intMax : List Int → PyM Int
  | [] => .error .valueError
  | x :: xs => .ok (xs.foldl max x)

/-- `np.min` of an array of integers.  /repo/PyEMD/EEMD.py:185, /repo/PyEMD/EMD2d.py:295. -/
def intMin : List Int → PyM Int
  | [] => .error .valueError
  | x :: xs => .ok (xs.foldl min x)

variable {α ρ : Type} [Add α] [Sub α] [Mul α] [Div α] [Neg α] [LT α] [LE α] [BEq α]
  [DecidableLT α] [DecidableLE α] [NpScalar α]

/-- Conversion of an integer sample to a float, e.g. in `self._S + noise` (/repo/PyEMD/EEMD.py:237) and
`(image - offset) / scale` (/repo/PyEMD/EMD2d.py:299). -/
def ofInt (k : Int) : α := lit (k : ℚ)

namespace EEMD

/-- `prepare` for integer samples.  /repo/PyEMD/EEMD.py:182-190. -/
def prepareInt (t : IntType) (cfg : Cfg α) (S : List Int) (T : Option (List α)) (maxImf : Int) : PyM (Job α) := do
  let T ← match T with
    | some T => pure T
    | none => EMD.timeline S.length
  let mx ← intMax S
  let mn ← intMin S
  return { S := S.map ofInt, T, scale := cfg.noiseWidth * ofInt (t.abs (t.sub mx mn)), maxImf }

/-- `EEMD.eemd` for integer samples.  `RandomState.normal` raises `ValueError` for a negative scale, in the first trial: in sequential mode
`_all_imfs` has been reset by then, in parallel mode it has not.  /repo/PyEMD/EEMD.py:155-230, 140. -/
def Obj.eemdInt (rng : Rng α ρ) (fuel : Nat) (sp : SciPy α) (order : List Nat) (o : Obj α ρ) (t : IntType) (S : List Int)
    (T : Option (List α)) (maxImf : Int) : PyM (List (List α)) × Obj α ρ :=
  match prepareInt t o.cfg S T maxImf with
  | .error e => (.error e, o)
  | .ok job =>
    if o.cfg.noiseKind = .normal ∧ job.scale < lit 0 ∧ 0 < o.cfg.trials then
      (.error .valueError, if o.cfg.parallel then o else { o with allImfs := [] })
    else if o.cfg.parallel then
      let st : TrialState α ρ := { random := o.random, emd := o.emd }
      let c := chunkSize o.cfg.trials o.cfg.processes
      let results := (chunkLengths o.cfg.trials c).map (fun n => runChunk rng fuel sp o.cfg job n st)
      match poolMap results order with
      | .error e => (.error e, o)
      | .ok rs => finish (S.map ofInt) o (rs.foldl addTrial [])
    else
      match runTrials rng fuel sp o.cfg job o.cfg.trials { random := o.random, emd := o.emd } [] with
      | (.error e, st, d) => (.error e, { o with random := st.random, emd := st.emd, allImfs := d })
      | (.ok (), st, d) => finish (S.map ofInt) { o with random := st.random, emd := st.emd } d

end EEMD

namespace EMD2D

/-- An image of integers as floats, e.g. in `image - np.sum(IMFs, axis=0)` (/repo/PyEMD/EMD2d.py:239). -/
def ofIntImg (image : Img Int) : Img α := { rows := image.rows, cols := image.cols, data := image.data.map ofInt }

/-- `emd(image, max_imf)` for an image of integers.  `end_condition` compares the image itself with sums of floats, so only
`image_max - image_min` and `image - offset` are integer arithmetic.  /repo/PyEMD/EMD2d.py:278-380. -/
def emdInt (sbs : Surface α) (fuel : Nat) (cfg : Cfg2 α) (t : IntType) (image : Img Int) (maxImf : Int) : PyM (List (Img α)) := do
  let image_min ← intMin image.data
  let image_max ← intMax image.data
  let scale : α := ofInt (t.sub image_max image_min)
  if scale == lit 0 then .error .nonFinite else do
    let image_s : Img α := { rows := image.rows, cols := image.cols, data := image.data.map (fun x => ofInt (t.sub x image_min) / scale) }
    let imfs ← loop sbs cfg (ofIntImg image) image_s maxImf fuel []
    let res := image_s.sub (Img.sum image.rows image.cols imfs)
    let imfs := if allclose0 res.data then imfs else imfs ++ [res]
    let imfs := imfs.map (fun im => im.map (fun x => x * scale))
    pure (addLast (ofInt image_min) imfs)

end EMD2D
end PyEMD
