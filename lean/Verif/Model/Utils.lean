import Verif.Model.Py
import Mathlib.Data.Nat.Size
import Mathlib.Algebra.Order.Ring.Rat

/-!
# `PyEMD/utils.py`

NumPy's scalar types are modelled by the values they hold.  `longdouble` is not modelled; `other` stands for everything that
is neither an integer nor a floating type (`bool`, complex, `object`, ...).
-/

namespace PyEMD
namespace Utils

/-- NumPy dtypes.  /repo/PyEMD/utils.py:43-58. -/
inductive DType where
  | i8 | i16 | i32 | i64 | u8 | u16 | u32 | u64 | f16 | f32 | f64 | other
  deriving DecidableEq, Repr

/-- `np.issubdtype(dtype, np.integer)`.  /repo/PyEMD/utils.py:43. -/
def DType.isInteger : DType → Bool
  | .i8 | .i16 | .i32 | .i64 | .u8 | .u16 | .u32 | .u64 => true
  | _ => false

/-- `np.issubdtype(dtype, np.floating)`.  /repo/PyEMD/utils.py:51. -/
def DType.isFloating : DType → Bool
  | .f16 | .f32 | .f64 => true
  | _ => false

/-- `np.iinfo(dtype).max` and `np.finfo(dtype).max` of the candidate types.  /repo/PyEMD/utils.py:45, 53. -/
def DType.maxVal : DType → ℚ
  | .i8 => 2 ^ 7 - 1
  | .i16 => 2 ^ 15 - 1
  | .i32 => 2 ^ 31 - 1
  | .i64 => 2 ^ 63 - 1
  | .u8 => 2 ^ 8 - 1
  | .u16 => 2 ^ 16 - 1
  | .u32 => 2 ^ 32 - 1
  | .u64 => 2 ^ 64 - 1
  | .f16 => 2 ^ 16 - 2 ^ 5
  | .f32 => 2 ^ 128 - 2 ^ 104
  | .f64 => 2 ^ 1024 - 2 ^ 971
  | .other => 0

/-- The `for dtype in [...]` loops: the first candidate whose maximum exceeds the value.  /repo/PyEMD/utils.py:44-46, 52-54. -/
def firstAbove (v : ℚ) : List DType → PyM DType
  | [] => .error .valueError
  | d :: ds => if v < d.maxVal then .ok d else firstAbove v ds

/-- `smallest_inclusive_dtype(ref_dtype, ref_value)`.  /repo/PyEMD/utils.py:30-58. -/
def smallestInclusiveDtype (d : DType) (v : ℚ) : PyM DType :=
  if d.isInteger then firstAbove v [.u16, .u32, .u64]
  else if d.isFloating then firstAbove v [.f16, .f32, .f64]
  else .error .valueError

/-- Nearest integer with a significand of `p` bits, ties to even. -/
def roundSig (p i : Nat) : Nat :=
  let e := Nat.size i - p
  let q := i / 2 ^ e
  let r := i % 2 ^ e
  if 2 * r < 2 ^ e then q * 2 ^ e
  else if 2 ^ e < 2 * r then (q + 1) * 2 ^ e
  else if q % 2 = 0 then q * 2 ^ e
  else (q + 1) * 2 ^ e

/-- Element `i` of `np.arange(0, n, dtype=d)`: `i` converted to `d`, with wrap-around for integers and rounding for floats;
`none` is `inf`.  (NumPy fills `float16` arrays through `float32`; both roundings together are one rounding, since integers
beyond `2 ** 24` are infinite in `float16`.)  /repo/PyEMD/utils.py:23, 26. -/
def arangeElem (d : DType) (i : Nat) : Option Int :=
  match d with
  | .i8 => some ((i + 2 ^ 7 : Int) % 2 ^ 8 - 2 ^ 7)
  | .i16 => some ((i + 2 ^ 15 : Int) % 2 ^ 16 - 2 ^ 15)
  | .i32 => some ((i + 2 ^ 31 : Int) % 2 ^ 32 - 2 ^ 31)
  | .i64 => some ((i + 2 ^ 63 : Int) % 2 ^ 64 - 2 ^ 63)
  | .u8 => some ((i : Int) % 2 ^ 8)
  | .u16 => some ((i : Int) % 2 ^ 16)
  | .u32 => some ((i : Int) % 2 ^ 32)
  | .u64 => some ((i : Int) % 2 ^ 64)
  | .f16 => if roundSig 11 i < 2 ^ 16 then some (roundSig 11 i : Int) else none
  | .f32 => if roundSig 24 i < 2 ^ 128 then some (roundSig 24 i : Int) else none
  | .f64 => if roundSig 53 i < 2 ^ 1024 then some (roundSig 53 i : Int) else none
  | .other => none

/-- `np.arange(0, n, dtype=d)`; numpy refuses to fill arrays of non-numeric types.  /repo/PyEMD/utils.py:23, 26. -/
def arange (d : DType) (n : Nat) : PyM (List (Option Int)) :=
  if d = .other then .error .typeError else .ok ((List.range n).map (arangeElem d))

/-- `timeline[-1] != range_max - 1`.  `weak` selects NumPy 2, where the Python integer is first converted to a floating
`dtype`; NumPy 1 compares exactly.  /repo/PyEMD/utils.py:24. -/
def lastDiffers (weak : Bool) (d : DType) (last : Option Int) (n : Nat) : Bool :=
  if weak && d.isFloating then last != arangeElem d (n - 1) else last != some ((n : Int) - 1)

/-- `get_timeline(range_max, dtype)`: the dtype of the result and its elements; for `dtype=None` numpy uses `int64`.
/repo/PyEMD/utils.py:12-27. -/
def getTimeline (weak : Bool) (n : Nat) (dtype : Option DType) : PyM (DType × List (Option Int)) := do
  let d := dtype.getD .i64
  let t ← arange d n
  match t.getLast? with
  | none => .error .indexError
  | some last =>
    if lastDiffers weak d last n then
      let d' ← smallestInclusiveDtype d n
      return (d', ← arange d' n)
    else return (d, t)

/-- `np.promote_types` (NumPy 2) / `np.find_common_type` (NumPy 1) on the modelled types, NumPy's table: within one kind the
wider type; mixed signs the narrowest signed type that holds both, `float64` if there is none; with a float the narrowest
float that holds both, at most `float64`.  `other` is only a placeholder here.  /repo/PyEMD/utils.py:65-68. -/
def promoteTypes : DType → DType → DType
  | .i8, .i8 => .i8
  | .u8, .u8 => .u8
  | .i8, .i16 | .i16, .i8 | .i16, .i16 => .i16
  | .u8, .u16 | .u16, .u8 | .u16, .u16 => .u16
  | .i8, .u8 | .u8, .i8 | .i16, .u8 | .u8, .i16 => .i16
  | .i32, .i8 | .i32, .i16 | .i32, .u8 | .i32, .u16 | .i32, .i32 | .i8, .i32 | .i16, .i32 | .u8, .i32 | .u16, .i32 => .i32
  | .i8, .u16 | .u16, .i8 | .i16, .u16 | .u16, .i16 => .i32
  | .u32, .u8 | .u32, .u16 | .u32, .u32 | .u8, .u32 | .u16, .u32 => .u32
  | .u32, .i8 | .u32, .i16 | .u32, .i32 | .i8, .u32 | .i16, .u32 | .i32, .u32 => .i64
  | .i64, .i8 | .i64, .i16 | .i64, .i32 | .i64, .i64 | .i64, .u8 | .i64, .u16 | .i64, .u32 => .i64
  | .i8, .i64 | .i16, .i64 | .i32, .i64 | .u8, .i64 | .u16, .i64 | .u32, .i64 => .i64
  | .u64, .u8 | .u64, .u16 | .u64, .u32 | .u64, .u64 | .u8, .u64 | .u16, .u64 | .u32, .u64 => .u64
  | .u64, .i8 | .u64, .i16 | .u64, .i32 | .u64, .i64 | .i8, .u64 | .i16, .u64 | .i32, .u64 | .i64, .u64 => .f64
  | .f16, .f16 | .f16, .i8 | .f16, .u8 | .i8, .f16 | .u8, .f16 => .f16
  | .f16, .i16 | .f16, .u16 | .i16, .f16 | .u16, .f16 | .f16, .f32 | .f32, .f16 | .f32, .f32 => .f32
  | .f32, .i8 | .f32, .u8 | .f32, .i16 | .f32, .u16 | .i8, .f32 | .u8, .f32 | .i16, .f32 | .u16, .f32 => .f32
  | .f16, .i32 | .f16, .u32 | .f16, .i64 | .f16, .u64 | .i32, .f16 | .u32, .f16 | .i64, .f16 | .u64, .f16 => .f64
  | .f32, .i32 | .f32, .u32 | .f32, .i64 | .f32, .u64 | .i32, .f32 | .u32, .f32 | .i64, .f32 | .u64, .f32 => .f64
  | .f64, .f64 | .f64, .f32 | .f64, .f16 | .f32, .f64 | .f16, .f64 => .f64
  | .f64, .i8 | .f64, .i16 | .f64, .i32 | .f64, .i64 | .f64, .u8 | .f64, .u16 | .f64, .u32 | .f64, .u64 => .f64
  | .i8, .f64 | .i16, .f64 | .i32, .f64 | .i64, .f64 | .u8, .f64 | .u16, .f64 | .u32, .f64 | .u64, .f64 => .f64
  | .other, _ | _, .other => .other

/-- `deduce_common_type(xtype, ytype)`; the cache of a pure function is not modelled.  /repo/PyEMD/utils.py:61-69. -/
def deduceCommonType (x y : DType) : DType :=
  if x = y then x else promoteTypes x y

/-- An array: dtype and values. -/
structure Arr where
  dtype : DType
  vals : List ℚ
  deriving DecidableEq

/-- `unify_types(x, y)`; `cast d` is NumPy's conversion of one value to `d` (`astype`).  /repo/PyEMD/utils.py:72-79. -/
def unifyTypes (cast : DType → ℚ → ℚ) (x y : Arr) : Arr × Arr :=
  let d := deduceCommonType x.dtype y.dtype
  let x := if x.dtype ≠ d then { dtype := d, vals := x.vals.map (cast d) } else x
  let y := if y.dtype ≠ d then { dtype := d, vals := y.vals.map (cast d) } else y
  (x, y)

end Utils
end PyEMD
