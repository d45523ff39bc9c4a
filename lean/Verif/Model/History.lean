import Verif.Model.Emd

/-!
# Histories of operations on one `EMD` object
-/

namespace PyEMD
namespace EMD

variable {α : Type} [Add α] [Sub α] [Mul α] [Div α] [Neg α] [LT α] [LE α] [BEq α]
  [DecidableLT α] [DecidableLE α] [NpScalar α]

/-- What a user can do with an `EMD` object: decompose (/repo/PyEMD/EMD.py:773, also through `__call__`, 119-120), assign
configuration attributes (declared at /repo/PyEMD/EMD.py:93-113), read the results (/repo/PyEMD/EMD.py:922, 938).  The
`fuel` of a decomposition is part of the model only. -/
inductive Op (α : Type)
  | emd (fuel : Nat) (S : List α) (T : Option (List α)) (max_imf : Int)
  | setCfg (cfg : Cfg α)
  | getImfsAndResidue
  | getImfsAndTrend

/-- What the user sees. -/
inductive Out (α : Type)
  | rows (r : PyM (List (List α)))
  | none
  | pair (r : PyM (List (List α) × List α))

/-- One operation.  /repo/PyEMD/EMD.py:773-960.  The attribute `DTYPE` (109, assigned at 807 before it is read) is not
modelled. -/
def Obj.step (sp : SciPy α) (o : Obj α) : Op α → Out α × Obj α
  | .emd fuel S T max_imf => let (r, o') := o.emd fuel sp S T max_imf; (.rows r, o')
  | .setCfg cfg => (.none, { o with cfg })
  | .getImfsAndResidue => (.pair o.getImfsAndResidue, o)
  | .getImfsAndTrend => (.pair o.getImfsAndTrend, o)

/-- The object after a history.  (Iteration of `Obj.step`, /repo/PyEMD/EMD.py:773-960.) -/
def Obj.run (sp : SciPy α) (o : Obj α) (h : List (Op α)) : Obj α := h.foldl (fun o op => (o.step sp op).2) o

end EMD
end PyEMD
