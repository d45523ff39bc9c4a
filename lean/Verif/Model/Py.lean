import Mathlib.Algebra.Order.Field.Basic
import Mathlib.Algebra.Order.Floor.Defs
import Mathlib.Data.Rat.Cast.Defs
import Mathlib.Data.List.Sort

/-!
# Python and numpy primitives used by the model

Nothing in this file is specific to PyEMD; it fixes the meaning of the Python/numpy operations the
transcribed functions use.  Arrays are lists, exceptions are values of `PyErr`.
-/

namespace PyEMD

/-- Python exceptions raised (explicitly or by numpy) in /repo/PyEMD, plus the pseudo-error
`outOfFuel` of the bounded unfolding of `while` loops (e.g. /repo/PyEMD/EMD.py:823, 834) and `nonFinite`. -/
inductive PyErr
  | indexError
  | valueError
  | assertionError
  | typeError
  | attributeError
  | zeroDivisionError
  /-- a bare `raise Exception(msg)`, /repo/PyEMD/EMD.py:417, 430 -/
  | exception (msg : String)
  | outOfFuel
  /-- pseudo-error: numpy divides by zero and goes on with inf or NaN, which exact arithmetic cannot follow -/
  | nonFinite
  deriving DecidableEq, Repr

/-- Results of Python calls: a value or an exception. -/
abbrev PyM := Except PyErr

/-- The part of numpy scalars/reductions that is not covered by the core operation classes.
No laws: an instance may round, overflow or produce NaN. -/
class NpScalar (α : Type) where
  /-- a numeric literal of the source code -/
  lit : ℚ → α
  /-- `x.astype(int)`: truncation towards zero (/repo/PyEMD/EMD.py:344) -/
  toInt : α → Int
  /-- `np.sum` of a 1-D array (pairwise summation for floats) -/
  npSum : List α → α
  /-- `np.max` of a non-empty 1-D array -/
  npMax : List α → α
  /-- `np.min` of a non-empty 1-D array -/
  npMin : List α → α

export NpScalar (lit toInt npSum npMax npMin)

/-- Exact arithmetic: any linearly ordered field with floors (ℚ, ℝ). -/
instance (priority := 100) exactScalar {K : Type} [Field K] [LinearOrder K] [FloorRing K] :
    NpScalar K where
  lit q := (q : K)
  toInt x := if 0 ≤ x then ⌊x⌋ else ⌈x⌉
  npSum l := l.sum
  npMax l := match l with
    | [] => 0
    | x :: xs => xs.foldl max x
  npMin l := match l with
    | [] => 0
    | x :: xs => xs.foldl min x

/-- Python index `i` into a sequence of length `n`: negative indices count from the end. -/
def pyIdx (n : Nat) (i : Int) : Option Nat :=
  if 0 ≤ i then (if i < n then some i.toNat else none)
  else (if 0 ≤ i + n then some (i + n).toNat else none)

/-- `l[i]`; `IndexError` when out of range. -/
def pyGet {β : Type} (l : List β) (i : Int) : PyM β :=
  match pyIdx l.length i with
  | none => .error .indexError
  | some k => match l[k]? with
    | none => .error .indexError
    | some x => .ok x

/-- `l[idx]` for an array `idx` of indices (numpy "fancy" indexing). -/
def pyTake {β : Type} (l : List β) : List Int → PyM (List β)
  | [] => .ok []
  | i :: is => do
    let x ← pyGet l i
    let xs ← pyTake l is
    return x :: xs

/-- Normalisation of a slice bound. -/
def sliceBound (n : Nat) (i : Int) : Nat :=
  if i < 0 then (i + n).toNat else min i.toNat n

/-- `l[a:b]` -/
def pySlice {β : Type} (l : List β) (a b : Int) : List β :=
  (l.take (sliceBound l.length b)).drop (sliceBound l.length a)

/-- `l[a:]` -/
def pySliceFrom {β : Type} (l : List β) (a : Int) : List β :=
  l.drop (sliceBound l.length a)

/-- `np.nonzero(mask)[0]`: increasing list of the positions of `True`. -/
def nonzero (m : List Bool) : List Nat :=
  (List.range m.length).filter (fun i => m[i]?.getD false)

/-- `np.diff` -/
def npDiff {β : Type} [Sub β] (l : List β) : List β :=
  List.zipWith (fun b a => b - a) l.tail l

/-- `bool` as `int` (numpy concatenation of ints and bools). -/
def b2i (b : Bool) : Int := if b then 1 else 0

/-- `np.diff(np.concatenate(([0], mask, [0])))`: +1 where a run of `True` starts, -1 just after it ends. -/
def runDiff (m : List Bool) : List Int :=
  npDiff ([0] ++ m.map b2i ++ [0])

/-- `np.round(s / 2.0)` for a natural number `s`: halves are rounded to the even neighbour. -/
def roundHalf (s : Nat) : Nat :=
  if s % 2 = 0 then s / 2 else if (s / 2) % 2 = 0 then s / 2 else s / 2 + 1

/-- `np.sort` of an integer array. -/
def npSort (l : List Nat) : List Nat := l.insertionSort (· ≤ ·)

/-- Selection by a boolean mask, `l[mask]`. -/
def maskSel {β : Type} : List β → List Bool → List β
  | x :: xs, b :: bs => if b then x :: maskSel xs bs else maskSel xs bs
  | _, _ => []

section Arith
variable {α : Type} [Add α] [Sub α] [Mul α] [Div α] [Neg α] [LT α] [LE α] [BEq α]
  [DecidableLT α] [DecidableLE α] [NpScalar α]

/-- `abs` / `np.abs` -/
def pyAbs (x : α) : α := if x < lit 0 then -x else x

/-- Elementwise binary operation with numpy broadcasting of length-1 arrays; `ValueError` otherwise. -/
def bcast (f : α → α → α) (a b : List α) : PyM (List α) :=
  if a.length = b.length then .ok (List.zipWith f a b)
  else match a, b with
    | [x], _ => .ok (b.map (f x))
    | _, [y] => .ok (a.map (fun x => f x y))
    | _, _ => .error .valueError

/-- `dst[:] = src` for a destination of length `n`. -/
def assignAll (n : Nat) (src : List α) : PyM (List α) :=
  if src.length = n then .ok src
  else match src with
    | [x] => .ok (List.replicate n x)
    | _ => .error .valueError

/-- `a - b` for arrays of equal length (used where the shapes agree by construction). -/
def vsub (a b : List α) : List α := List.zipWith (fun x y => x - y) a b

/-- `a + b` for arrays of equal length. -/
def vadd (a b : List α) : List α := List.zipWith (fun x y => x + y) a b

/-- `np.zeros(n)` -/
def vzeros (n : Nat) : List α := List.replicate n (lit 0)

/-- `np.sum(rows, axis=0)` for a 2-D array with `n` columns; zeros when there are no rows.
(numpy starts the reduction from the first row instead of from zeros; same value in exact arithmetic,
at most a different sign of a zero for floats.) -/
def sumRows (n : Nat) (rows : List (List α)) : List α := rows.foldl vadd (vzeros n)

/-- `np.allclose(r, 0)`: `|r| <= atol + rtol * 0` with `atol = 1e-8`. -/
def allclose0 (r : List α) : Bool := r.all (fun x => decide (pyAbs x ≤ lit (1 / 100000000)))

/-- Python's builtin `max` of a sequence: keeps the first of equal elements; `ValueError` if empty. -/
def pyMax : List α → PyM α
  | [] => .error .valueError
  | x :: xs => .ok (xs.foldl (fun m y => if m < y then y else m) x)

/-- Python's builtin `min`. -/
def pyMin : List α → PyM α
  | [] => .error .valueError
  | x :: xs => .ok (xs.foldl (fun m y => if y < m then y else m) x)

/-- `np.max` with its `ValueError` on empty arrays. -/
def npMaxE (l : List α) : PyM α := if l.isEmpty then .error .valueError else .ok (npMax l)

/-- `np.min` with its `ValueError` on empty arrays. -/
def npMinE (l : List α) : PyM α := if l.isEmpty then .error .valueError else .ok (npMin l)

/-- `num / den < thr` for numpy scalars: a zero denominator gives inf or NaN, for which `<` is `False`. -/
def divLt (num den thr : α) : Bool := !(den == lit 0) && decide (num / den < thr)

end Arith

end PyEMD
