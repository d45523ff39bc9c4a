import Verif.Spec.Eemd
import Verif.Spec.Samples

/-!
# Concrete generator and objects used by the `example`s about `EEMD`
-/

namespace PyEMD
namespace EEMD
open Spec

/-- A generator over the rationals. -/
def sampleRng : Rng ℚ Nat where
  normal r s n := ((List.range n).map (fun i => s * (((r + i) * (r + i) % 5 : Nat) - 2)), r + n)
  uniform r a b n := ((List.range n).map (fun i => a + (b - a) * ((r + i) * (r + i) % 5 : Nat) / 4), r + n)
  seed s := s.toNat

theorem sampleRng_sized : Sized sampleRng := ⟨by simp [sampleRng], by simp [sampleRng]⟩

theorem sampleRng_zero : ZeroScale sampleRng := by
  constructor <;>
  · intro r n
    simp only [sampleRng]
    rw [List.eq_replicate_iff]
    simp [lit]

/-- Configuration with three trials. -/
def sampleCfg : Cfg ℚ :=
  { trials := 3, noiseWidth := 1 / 4, separateTrends := false, noiseKind := .normal, parallel := false, processes := 1 }

/-- An object that has not been used. -/
def sampleObj (cfg : Cfg ℚ) : Obj ℚ Nat :=
  { cfg, random := 1, emd := ⟨EMD.sampleFixe, none, none⟩, E_IMF := none, residue := none, allImfs := [] }

/-- Shorter signal. -/
def sampleS : List ℚ := [0, 3, -1, 2, -2, 1, 0]

end EEMD
end PyEMD
