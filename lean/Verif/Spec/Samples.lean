import Verif.Spec.Interp

/-!
# Concrete signals used by the `example`s
-/

namespace PyEMD

/-- Boolean test of a successful result. -/
def okWith {β : Type} (p : β → Bool) : PyM β → Bool
  | .ok x => p x
  | .error _ => false

theorem okWith_iff {β : Type} {p : β → Bool} {x : PyM β} : okWith p x = true ↔ ∃ a, x = .ok a ∧ p a = true := by
  cases x <;> simp [okWith]

/-- Boolean test for a particular exception. -/
def errIs {β : Type} (e : PyErr) : PyM β → Bool
  | .ok _ => false
  | .error e' => e' == e

theorem errIs_iff {β : Type} {e : PyErr} {x : PyM β} : errIs e x = true ↔ x = .error e := by
  cases x <;> simp [errIs]

namespace EMD

/-- A signal with several extrema and zero crossings. -/
def sampleS : List ℚ := [0, 3, -1, 2, -2, 5, 1, 4, 0, 1]

/-- Default configuration with few iterations. -/
def sampleCfg : Cfg ℚ := { Cfg.default with MAX_ITERATION := 6 }

/-- Two siftings per component. -/
def sampleFixe : Cfg ℚ := { Cfg.default with FIXE := 2 }

/-- Two consecutive IMF-like siftings per component. -/
def sampleFixeH : Cfg ℚ := { Cfg.default with FIXE_H := 2 }

end EMD
end PyEMD
