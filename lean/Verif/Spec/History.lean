import Verif.Model.History

/-!
# Specification vocabulary for histories of an `EMD` object
-/

namespace PyEMD
namespace EMD
namespace Spec

variable {α : Type} [Add α] [Sub α] [Mul α] [Div α] [Neg α] [LT α] [LE α] [BEq α]
  [DecidableLT α] [DecidableLE α] [NpScalar α]

/-- The configuration in force after a history: the one assigned last. -/
def cfgAfter (cfg : Cfg α) : List (Op α) → Cfg α
  | [] => cfg
  | .setCfg c :: h => cfgAfter c h
  | _ :: h => cfgAfter cfg h

/-- No decomposition in the history succeeded. -/
def NoSuccess (sp : SciPy α) (cfg : Cfg α) (h : List (Op α)) : Prop :=
  ∀ h1 fuel S T m h2, h = h1 ++ Op.emd fuel S T m :: h2 → ∀ r, emdPure fuel sp (cfgAfter cfg h1) S T m ≠ .ok r

end Spec
end EMD
end PyEMD
