import Verif.Model.Init

/-!
# Vocabulary for the constructors: options are assignments to attributes
-/

namespace PyEMD
namespace Spec
open Init

variable {α : Type} [Add α] [Sub α] [Mul α] [Div α] [Neg α] [LT α] [LE α] [BEq α]
  [DecidableLT α] [DecidableLE α] [NpScalar α]

/-- One documented option of `EMD`, as an assignment to the attribute of that name; any other name changes nothing. -/
def setOption (py : PyStr α) (c : EMD.Cfg α) : String × Value α → PyM (EMD.Cfg α)
  | ("energy_ratio_thr", v) => (pyFloat py v).map (fun x => { c with energyRatioThr := x })
  | ("std_thr", v) => (pyFloat py v).map (fun x => { c with stdThr := x })
  | ("svar_thr", v) => (pyFloat py v).map (fun x => { c with svarThr := x })
  | ("total_power_thr", v) => (pyFloat py v).map (fun x => { c with totalPowerThr := x })
  | ("range_thr", v) => (pyFloat py v).map (fun x => { c with rangeThr := x })
  | ("nbsym", v) => (pyInt py v).map (fun x => { c with nbsym := x })
  | ("scale_factor", v) => (pyFloat py v).map (fun _ => c)
  | ("spline_kind", v) => .ok { c with splineKind := splineKind py v }
  | ("extrema_detection", v) =>
    if detection v = .unknown then .error .assertionError else .ok { c with detection := detection v }
  | ("FIXE", v) => (pyInt py v).map (fun x => { c with FIXE := x })
  | ("FIXE_H", v) => (pyInt py v).map (fun x => { c with FIXE_H := x })
  | ("MAX_ITERATION", v) => (pyInt py v).map (fun x => { c with MAX_ITERATION := x })
  | _ => .ok c

/-- The assignments one after another. -/
def setOptions (py : PyStr α) (c : EMD.Cfg α) (kw : Kwargs α) : PyM (EMD.Cfg α) := kw.foldlM (setOption py) c

/-- The options that belong to `EMD`. -/
def emdOptions : List String :=
  ["energy_ratio_thr", "std_thr", "svar_thr", "total_power_thr", "range_thr", "nbsym", "scale_factor", "spline_kind",
   "extrema_detection", "FIXE", "FIXE_H", "MAX_ITERATION"]

/-- The keyword options that belong to `EEMD` itself. -/
def eemdOptions : List String := ["separate_trends", "noise_kind", "processes"]

/-- The keyword options that belong to `CEEMDAN` itself. -/
def ceemdanOptions : List String :=
  ["noise_scale", "range_thr", "total_power_thr", "beta_progress", "seed", "noise_kind", "max_imf", "processes"]

end Spec
end PyEMD
