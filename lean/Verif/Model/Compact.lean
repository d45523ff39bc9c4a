import Verif.Model.Py

/-!
# `PyEMD/compact.py`

Arrays are read by index; an assignment to single entries of an array becomes a case distinction, later assignments first.
A zero pivot (numpy: a warning and infinite or undefined results) is the pseudo-exception `nonFinite`.
-/

namespace PyEMD
namespace Compact

variable {α : Type} [Add α] [Sub α] [Mul α] [Div α] [Neg α] [LT α] [LE α] [BEq α]
  [DecidableLT α] [DecidableLE α] [NpScalar α]

/-- `cp[i]`.  /repo/PyEMD/compact.py:16-19.  (The code leaves the last entry zero; it is not used.) -/
def cpAt (a b c : Nat → α) : Nat → α
  | 0 => c 0 / b 0
  | i + 1 => c (i + 1) / (b (i + 1) - a (i + 1) * cpAt a b c i)

/-- Divisor in step `i` of both loops.  /repo/PyEMD/compact.py:17, 19, 22, 24. -/
def pivot (a b c : Nat → α) : Nat → α
  | 0 => b 0
  | i + 1 => b (i + 1) - a (i + 1) * cpAt a b c i

/-- `dp[i]`.  /repo/PyEMD/compact.py:21-24. -/
def dpAt (a b c d : Nat → α) : Nat → α
  | 0 => d 0 / b 0
  | i + 1 => (d (i + 1) - a (i + 1) * dpAt a b c d i) / (b (i + 1) - a (i + 1) * cpAt a b c i)

/-- Back substitution: `backAt k` is `x[n - 1 - k]`.  /repo/PyEMD/compact.py:26-29. -/
def backAt (a b c d : Nat → α) (n : Nat) : Nat → α
  | 0 => dpAt a b c d (n - 1)
  | k + 1 => dpAt a b c d (n - 1 - (k + 1)) - cpAt a b c (n - 1 - (k + 1)) * backAt a b c d n k

/-- The solver on coefficient arrays given by their entries.  /repo/PyEMD/compact.py:14-31. -/
def tdma (a b c d : Nat → α) (n : Nat) : PyM (List α) :=
  if n = 0 then .error .indexError
  else if (List.range n).any (fun i => pivot a b c i == lit 0) then .error .nonFinite
  else .ok ((List.range n).map (fun i => backAt a b c d n (n - 1 - i)))

/-- `TDMAsolver(a, b, c, d)`.  /repo/PyEMD/compact.py:4-31.  The entries read are `c[0]`, `c[1] … c[n-2]`, `a[1] … a[n-1]` and
`d[0] … d[n-1]`; a missing one raises `IndexError`. -/
def TDMAsolver (a b c d : List α) : PyM (List α) :=
  if (2 ≤ b.length ∧ a.length < b.length) ∨ c.length < 1 ∨ c.length < b.length - 1 ∨ d.length < b.length then .error .indexError
  else tdma (fun i => a.getD i (lit 0)) (fun i => b.getD i (lit 0)) (fun i => c.getD i (lit 0)) (fun i => d.getD i (lit 0)) b.length

/-- Right-hand side of the filter.  /repo/PyEMD/compact.py:47-71. -/
def filt6Rhs (f : Nat → α) (alpha : α) (n i : Nat) : α :=
  let Ca := (lit 11 + lit 10 * alpha) / lit 16
  let Cb := (lit 15 + lit 34 * alpha) / lit 32
  let Cc := (lit (-3) + lit 6 * alpha) / lit 16
  let Cd := (lit 1 - lit 2 * alpha) / lit 32
  if i = n - 3 then lit (5 / 8) * f (n - 3) + (-f (n - 1) + lit 4 * f (n - 2) + lit 4 * f (n - 4) - f (n - 5)) / lit 16
  else if i = n - 2 then lit (3 / 4) * f (n - 2) + (f (n - 1) + lit 6 * f (n - 3) - lit 4 * f (n - 4) + f (n - 5)) / lit 16
  else if i = n - 1 then lit (15 / 16) * f (n - 1) + (lit 4 * f (n - 2) - lit 6 * f (n - 3) + lit 4 * f (n - 4) - f (n - 5)) / lit 16
  else if i = 2 then lit (5 / 8) * f 2 + (-f 0 + lit 4 * f 1 + lit 4 * f 3 - f 4) / lit 16
  else if i = 1 then lit (3 / 4) * f 1 + (f 0 + lit 6 * f 2 - lit 4 * f 3 + f 4) / lit 16
  else if i = 0 then lit (15 / 16) * f 0 + (lit 4 * f 1 - lit 6 * f 2 + lit 4 * f 3 - f 4) / lit 16
  else Cd * lit (1 / 2) * (f (i + 3) + f (i - 3)) + Cc * lit (1 / 2) * (f (i + 2) + f (i - 2)) +
    Cb * lit (1 / 2) * (f (i + 1) + f (i - 1)) + Ca * f i

/-- `Da` of the filter.  /repo/PyEMD/compact.py:73-88. -/
def filt6A (alpha : α) (n i : Nat) : α :=
  if i = n - 3 ∨ i = n - 2 ∨ i = n - 1 ∨ i = 2 ∨ i = 1 then lit 0 else alpha * lit 1

/-- `Dc` of the filter.  /repo/PyEMD/compact.py:75-88. -/
def filt6C (alpha : α) (n i : Nat) : α :=
  if i = n - 3 ∨ i = n - 2 ∨ i = 2 ∨ i = 1 ∨ i = 0 then lit 0 else alpha * lit 1

/-- `filt6(f, alpha)`; fewer than five samples raise `IndexError` at `f[4]` (or before).  /repo/PyEMD/compact.py:34-90. -/
def filt6 (f : List α) (alpha : α) : PyM (List α) :=
  if f.length < 5 then .error .indexError
  else tdma (filt6A alpha f.length) (fun _ => lit 1) (filt6C alpha f.length)
    (filt6Rhs (fun i => f.getD i (lit 0)) alpha f.length) f.length

/-- Right-hand side of the derivative.  /repo/PyEMD/compact.py:101-143. -/
def pade6Rhs (v : Nat → α) (h : α) (n i : Nat) : α :=
  let a : α := lit (14 / 18)
  let b : α := lit (1 / 36)
  if i = n - 2 then (lit (20 / 33) * v (n - 1) + lit (35 / 132) * v (n - 2) + lit (-34 / 33) * v (n - 3) + lit (7 / 33) * v (n - 4)
    + lit (-2 / 33) * v (n - 5) + lit (1 / 132) * v (n - 6)) / h
  else if i = n - 1 then (lit (197 / 60) * v (n - 1) + lit (5 / 12) * v (n - 2) + lit (-5) * v (n - 3) + lit (5 / 3) * v (n - 4)
    + lit (-5 / 12) * v (n - 5) + lit (1 / 20) * v (n - 6)) / h
  else if i = 1 then (lit (-20 / 33) * v 0 + lit (-35 / 132) * v 1 + lit (34 / 33) * v 2 + lit (-7 / 33) * v 3
    + lit (2 / 33) * v 4 + lit (-1 / 132) * v 5) / h
  else if i = 0 then (lit (-197 / 60) * v 0 + lit (-5 / 12) * v 1 + lit 5 * v 2 + lit (-5 / 3) * v 3
    + lit (5 / 12) * v 4 + lit (-1 / 20) * v 5) / h
  else (v (i + 1) - v (i - 1)) * (a / h) + (v (i + 2) - v (i - 2)) * (b / h)

/-- `Da` of the derivative.  /repo/PyEMD/compact.py:145-156. -/
def pade6A (n i : Nat) : α :=
  if i = n - 2 then lit (2 / 11)
  else if i = n - 1 then lit 5
  else if i = 1 then lit (2 / 11)
  else lit (1 / 3) * lit 1

/-- `Dc` of the derivative.  /repo/PyEMD/compact.py:145-159. -/
def pade6C (n i : Nat) : α :=
  if i = n - 2 then lit (2 / 11)
  else if i = 1 then lit (2 / 11)
  else if i = 0 then lit 5
  else lit (1 / 3) * lit 1

/-- `pade6(vec, h)`; fewer than six samples raise `IndexError` at `vec[5]` (or before).  /repo/PyEMD/compact.py:93-161. -/
def pade6 (vec : List α) (h : α) : PyM (List α) :=
  if vec.length < 6 then .error .indexError
  else if h == lit 0 then .error .nonFinite
  else tdma (pade6A vec.length) (fun _ => lit 1) (pade6C vec.length) (pade6Rhs (fun i => vec.getD i (lit 0)) h vec.length) vec.length

end Compact
end PyEMD
