import Verif.Model.Utils
import Verif.Model.Emd
import Mathlib.Data.Rat.Floor

/-!
# Types of the arrays in `EMD.emd`

`Verif/Model/Emd.lean` leaves out dtypes.  Here are the statements in front of the loop once more, with the types of the
arrays: /repo/PyEMD/EMD.py:796-806.  Values are rational numbers; what is not rounded is said below.
-/

namespace PyEMD
namespace Types
open Utils

/-- dtype of `x / y` for two operands of the dtype given: NumPy's true division gives `float64` for every integer type and
keeps floating types.  /repo/PyEMD/EMD.py:771. -/
def quotientType : DType → DType
  | .i8 | .i16 | .i32 | .i64 | .u8 | .u16 | .u32 | .u64 | .f64 => .f64
  | .f16 => .f16
  | .f32 => .f32
  | .other => .other

/-- `d != 0` for the difference `d` of neighbouring stamps, `none` being `inf`: `inf - x` and `inf - inf` are not 0.
/repo/PyEMD/EMD.py:769-770. -/
def apart : Option Int → Option Int → Bool
  | some a, some b => a != b
  | _, _ => true

/-- `_normalize_time` of the array made by `get_timeline`.  /repo/PyEMD/EMD.py:763-771.  The division is exact (the stamps are
integers and the smallest step of a strictly increasing range is 1). -/
def normalizeStamps (d : DType) (t : List (Option Int)) : PyM Arr := do
  if (t.zip t.tail).all (fun p => apart p.1 p.2) then
    match t.mapM id with
    | none => .error .nonFinite
    | some v => return ⟨quotientType d, ← EMD.normalizeTime (v.map (fun k : Int => (k : ℚ)))⟩
  else .error .assertionError

/-- The time array in front of the unification of the types; `simple` is `self.extrema_detection == "simple"`.
/repo/PyEMD/EMD.py:796-803.  For a time array of the caller the quotient is not rounded and unsigned differences do not wrap. -/
def rawTime (weak : Bool) (simple : Bool) (S : Arr) (T : Option Arr) : PyM Arr :=
  match T with
  | none => getTimeline weak S.vals.length (some S.dtype) >>= fun p => normalizeStamps p.1 p.2
  | some T =>
    if S.vals.length ≠ T.vals.length then .error .valueError
    else if simple then getTimeline weak S.vals.length (some S.dtype) >>= fun p => normalizeStamps p.1 p.2
    else EMD.normalizeTime T.vals >>= fun v => pure (Arr.mk (quotientType T.dtype) v)

/-- Lines 796-806 of `emd`: the signal and the time array as the loop gets them.  /repo/PyEMD/EMD.py:796-806. -/
def prepare (weak : Bool) (cast : DType → ℚ → ℚ) (simple : Bool) (S : Arr) (T : Option Arr) : PyM (Arr × Arr) := do
  let t ← rawTime weak simple S T
  return unifyTypes cast S t

/-- `EMD.emd(S, T, max_imf)` for typed arrays.  /repo/PyEMD/EMD.py:773-920; the arithmetic of the loop is exact.
The type returned is `DTYPE` of line 807, in which the sifting works; the returned array itself is `float64` (line 820). -/
def emd (weak : Bool) (cast : DType → ℚ → ℚ) (fuel : Nat) (sp : SciPy ℚ) (cfg : EMD.Cfg ℚ) (S : Arr) (T : Option Arr)
    (max_imf : Int) : PyM (DType × EMD.Result ℚ) := do
  let (S, T) ← prepare weak cast (decide (cfg.detection = .simple)) S T
  let (rounds, extNo) ← EMD.emdLoop sp cfg T.vals S.vals max_imf fuel [] (-1)
  return (S.dtype, EMD.finish S.vals (rounds.map (·.imf)) extNo)

end Types
end PyEMD
