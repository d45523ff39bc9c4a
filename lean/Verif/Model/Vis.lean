import Verif.Model.Emd
import Verif.Model.Ceemdan
import Verif.Model.Compact

/-!
# `PyEMD/visualisation.py`

Figures are modelled by what is drawn on each axis.  The Hilbert transform and the unwrapped angle are parameters.
-/

namespace PyEMD
namespace Vis

variable {α : Type} [Add α] [Sub α] [Mul α] [Div α] [Neg α] [LT α] [LE α] [BEq α]
  [DecidableLT α] [DecidableLE α] [NpScalar α]

/-- The attributes `imfs` and `residue` of a `Visualisation` object.  /repo/PyEMD/visualisation.py:23-30. -/
structure Obj (α : Type) where
  imfs : Option (List (List α))
  residue : Option (List α)

/-- `Visualisation(emd_instance)`.  /repo/PyEMD/visualisation.py:23-30. -/
def Obj.new (emd_instance : Option (EMD.Obj α)) : PyM (Obj α) :=
  match emd_instance with
  | none => .ok { imfs := none, residue := none }
  | some e => do
    let (imfs, residue) ← e.getImfsAndResidue
    pure { imfs := some imfs, residue := some residue }

/-- `_check_imfs(imfs, residue, include_residue)`.  /repo/PyEMD/visualisation.py:32-43. -/
def Obj.checkImfs (o : Obj α) (imfs : Option (List (List α))) (residue : Option (List α)) (include_residue : Bool) :
    PyM (List (List α) × Option (List α)) :=
  let imfs := match imfs with
    | some i => some i
    | none => o.imfs
  let residue := match residue with
    | some r => some r
    | none => o.residue
  match imfs with
  | none => .error .attributeError
  | some imfs => if include_residue && residue.isNone then .error .attributeError else .ok (imfs, residue)

/-- One axis of a figure: its label and the curves drawn on it. -/
structure Axis (α : Type) where
  label : String
  curves : List (List α)

/-- What `plt.subplots(n, 1)` returns: a single axis or an array of axes; it raises for no rows.
/repo/PyEMD/visualisation.py:59, 107. -/
inductive Axes (α : Type)
  | one (ax : Axis α)
  | many (axs : List (Axis α))

/-- `plt.subplots(num_rows, 1)`.  /repo/PyEMD/visualisation.py:59, 107. -/
def subplots (num_rows : Nat) : PyM (Axes α) :=
  if num_rows = 0 then .error .valueError
  else if num_rows = 1 then .ok (.one { label := "", curves := [] })
  else .ok (.many (List.replicate num_rows { label := "", curves := [] }))

/-- `axes[k].plot(t, y); axes[k].set_ylabel(label)`; `plot` raises when the lengths differ.
/repo/PyEMD/visualisation.py:67-69, 72-74, 115-117. -/
def draw (axs : List (Axis α)) (k : Nat) (tlen : Nat) (y : List α) (label : String) : PyM (List (Axis α)) :=
  match axs[k]? with
  | none => .error .indexError
  | some ax => if tlen ≠ y.length then .error .valueError
    else .ok (axs.set k { label, curves := ax.curves ++ [y] })

/-- `for num, imf in enumerate(imfs)`: draw row `num` on axis `num`.  /repo/PyEMD/visualisation.py:66-69, 114-117. -/
def drawAll (tlen : Nat) (label : Nat → String) : Nat → List (List α) → List (Axis α) → PyM (List (Axis α))
  | _, [], axs => .ok axs
  | num, imf :: imfs, axs => do
    let axs ← draw axs num tlen imf (label num)
    drawAll tlen label (num + 1) imfs axs

/-- `plot_imfs(imfs, residue, t, include_residue)`; `t` is represented by its length.  `list(axes)` of a single axis raises
`TypeError`.  /repo/PyEMD/visualisation.py:45-77. -/
def Obj.plotImfs (o : Obj α) (imfs : Option (List (List α))) (residue : Option (List α)) (tlen : Option Nat)
    (include_residue : Bool) : PyM (List (Axis α)) := do
  let (imfs, residue) ← o.checkImfs imfs residue include_residue
  let num_rows := imfs.length + (if include_residue then 1 else 0)
  let tlen := tlen.getD (imfs.headD []).length
  match ← subplots num_rows with
  | .one _ => .error .typeError
  | .many axs => do
    let axs ← drawAll tlen (fun num => "IMF " ++ toString (num + 1)) 0 imfs axs
    if include_residue then
      match residue with
      | none => .error .attributeError
      | some r => draw axs (axs.length - 1) tlen r "Res"
    else pure axs

/-- External functions of the instantaneous frequency: the analytic signal (real and imaginary parts of the Hilbert transform of a
row), the unwrapped angle, and pi.  /repo/PyEMD/visualisation.py:124, 130, 139, 142. -/
structure Ext (α : Type) where
  hilbert : List α → List α × List α
  unwrappedAngle : List α → List α → List α
  pi : α

/-- Unwrapped angle of the (filtered) analytic signal of one row.  /repo/PyEMD/visualisation.py:122-130. -/
def rawPhase (E : Ext α) (alpha : Option α) (row : List α) : PyM (List α) :=
  let (re, im) := E.hilbert row
  match alpha with
  | none => .ok (E.unwrappedAngle re im)
  | some alpha =>
    if lit (-1 / 2) < alpha ∧ alpha < lit (1 / 2) then do
      let re ← Compact.filt6 re alpha
      let im ← Compact.filt6 im alpha
      pure (E.unwrappedAngle re im)
    else .error .assertionError

/-- `_calc_inst_phase` for one row.  /repo/PyEMD/visualisation.py:122-133. -/
def instPhase (E : Ext α) (alpha : Option α) (row : List α) : PyM (List α) := do
  let phase ← rawPhase E alpha row
  match alpha with
  | none => pure phase
  | some alpha => Compact.filt6 phase alpha

/-- Differentiation of the phase of one row; `dt = t[1] - t[0]`.  A division by zero gives inf/NaN in numpy (`nonFinite`).
/repo/PyEMD/visualisation.py:138-142. -/
def phaseDeriv (E : Ext α) (order : Bool) (dt : α) (phase : List α) : PyM (List α) :=
  if order then do
    let d ← Compact.pade6 phase dt
    if lit 2 * E.pi == lit 0 then .error .nonFinite else pure (d.map (fun x => x / (lit 2 * E.pi)))
  else do
    let den := lit 2 * E.pi * dt
    let fs := (npDiff phase).map (fun x => x / den)
    let last ← pyGet fs (-1)
    if den == lit 0 then .error .nonFinite else pure (fs ++ [last])

/-- `_calc_inst_freq` for one row.  /repo/PyEMD/visualisation.py:135-146.  The code treats all rows in one array; the rows do not
interact. -/
def instFreqRow (E : Ext α) (order : Bool) (alpha : Option α) (dt : α) (row : List α) : PyM (List α) := do
  let phase ← instPhase E alpha row
  let freqs ← phaseDeriv E order dt phase
  match alpha with
  | none => pure freqs
  | some alpha => Compact.filt6 freqs alpha

/-- `_calc_inst_freq(sig, t, order, alpha)`.  /repo/PyEMD/visualisation.py:135-146. -/
def instFreq (E : Ext α) (order : Bool) (alpha : Option α) (sig : List (List α)) (t : List α) : PyM (List (List α)) := do
  let t1 ← pyGet t 1
  let t0 ← pyGet t 0
  CEEMDAN.mapE (instFreqRow E order alpha (t1 - t0)) sig

/-- `plot_instant_freq(t, imfs, order, alpha)`.  /repo/PyEMD/visualisation.py:79-120. -/
def Obj.plotInstantFreq (E : Ext α) (o : Obj α) (t : List α) (imfs : Option (List (List α))) (order : Bool) (alpha : Option α) :
    PyM (List (Axis α)) :=
  let valid := match alpha with
    | none => true
    | some a => decide (lit (-1 / 2) < a) && decide (a < lit (1 / 2))
  if valid then do
    let (imfs, _) ← o.checkImfs imfs none false
    let freqs ← instFreq E order alpha imfs t
    match ← subplots imfs.length with
    | .one ax => drawAll t.length (fun num => "IMF " ++ toString (num + 1) ++ " [Hz]") 0 freqs [ax]
    | .many axs => drawAll t.length (fun num => "IMF " ++ toString (num + 1) ++ " [Hz]") 0 freqs axs
  else .error .assertionError

end Vis
end PyEMD
