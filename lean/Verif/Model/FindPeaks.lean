import Verif.Model.Checks

/-!
# `scipy.signal.find_peaks(data, height=0)` as called by `PyEMD/checks.py`

`Model/Checks.lean` takes the number of peaks as a parameter.  This file gives SciPy's procedure: `_local_maxima_1d` walks over the
samples and reports each plateau (or single sample) that is strictly higher than the samples on both sides, and `find_peaks` keeps
those whose height is at least `height`.  SciPy is not part of /repo; the procedure follows
`scipy/signal/_peak_finding_utils.pyx` (`_local_maxima_1d`) and `scipy/signal/_peak_finding.py` (`find_peaks`).
-/

namespace PyEMD
namespace Checks

variable {α : Type} [LT α] [LE α] [BEq α] [DecidableLT α] [DecidableLE α] [NpScalar α]

/-- `i_ahead`: the first index from `i` on that is `i_max` or holds a value other than `v`.  The fuel is the length of the array.
SciPy `_local_maxima_1d`, called from /repo/PyEMD/checks.py:14. -/
def ahead (x : List α) (v : α) (iMax : Nat) : Nat → Nat → Nat
  | 0, i => i
  | fuel + 1, i =>
    match x[i]? with
    | some w => if i < iMax ∧ (w == v) = true then ahead x v iMax fuel (i + 1) else i
    | none => i

/-- The loop of `_local_maxima_1d` from index `i` on: left and right edge of each plateau found.  The fuel is the length of the
array.  SciPy `_local_maxima_1d`, called from /repo/PyEMD/checks.py:14. -/
def localMaxima (x : List α) (iMax : Nat) : Nat → Nat → List (Nat × Nat)
  | 0, _ => []
  | fuel + 1, i =>
    if i < iMax then
      match x[i - 1]?, x[i]? with
      | some p, some v =>
        if p < v then
          let a := ahead x v iMax x.length (i + 1)
          match x[a]? with
          | some w => if w < v then (i, a - 1) :: localMaxima x iMax fuel (a + 1) else localMaxima x iMax fuel (i + 1)
          | none => localMaxima x iMax fuel (i + 1)
        else localMaxima x iMax fuel (i + 1)
      | _, _ => []
    else []

/-- `find_peaks(data, height=0)[0]`: midpoints of the plateaus at which the value is at least 0.
SciPy `find_peaks`, called from /repo/PyEMD/checks.py:14. -/
def findPeaks (x : List α) : List Nat :=
  ((localMaxima x (x.length - 1) x.length 1).map (fun e => (e.1 + e.2) / 2)).filter
    (fun m => match x[m]? with | some v => decide (lit 0 ≤ v) | none => false)

/-- `len(find_peaks(data, height=0)[0])`.  /repo/PyEMD/checks.py:14. -/
def peakCount (x : List α) : Nat := (findPeaks x).length

end Checks
end PyEMD
