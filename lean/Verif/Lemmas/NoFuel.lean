import Verif.Lemmas.Basic

/-!
# Loop-free functions never report `outOfFuel`
-/

set_option linter.unusedSectionVars false

namespace PyEMD
namespace EMD

variable {α : Type} [Add α] [Sub α] [Mul α] [Div α] [Neg α] [LT α] [LE α] [BEq α]
  [DecidableLT α] [DecidableLE α] [NpScalar α]

theorem extremaIdx_noFuel (S : List α) : NoFuel (extremaIdx S) := by
  unfold extremaIdx
  nofuel

theorem findExtremaSimple_noFuel (T S : List α) : NoFuel (findExtremaSimple T S) := by
  unfold findExtremaSimple
  have := extremaIdx_noFuel S
  nofuel

theorem findExtremaParabol_noFuel (T S : List α) : NoFuel (findExtremaParabol T S) := by
  unfold findExtremaParabol
  nofuel

theorem findExtrema_noFuel (d : Detection) (T S : List α) : NoFuel (findExtrema d T S) := by
  unfold findExtrema
  have := findExtremaSimple_noFuel T S
  have := findExtremaParabol_noFuel T S
  nofuel

theorem leftBound_noFuel (nbsym : Int) (S : List α) (a b : List Int) : NoFuel (leftBound nbsym S a b) := by
  unfold leftBound
  nofuel

theorem rightBound_noFuel (nbsym : Int) (S : List α) (a b : List Int) : NoFuel (rightBound nbsym S a b) := by
  unfold rightBound
  nofuel

theorem mirrorTimes_noFuel (T : List α) (s : Int) (a : List Int) : NoFuel (mirrorTimes T s a) := by
  unfold mirrorTimes
  nofuel

theorem leftMirror_noFuel (nbsym : Int) (T : List α) (a b : List Int) (m : Mirror) :
    NoFuel (leftMirror nbsym T a b m) := by
  have h := fun s x => mirrorTimes_noFuel T s x
  unfold leftMirror
  nofuel
  all_goals exact h _ _

theorem rightMirror_noFuel (nbsym : Int) (T : List α) (n : Nat) (a b : List Int) (m : Mirror) :
    NoFuel (rightMirror nbsym T n a b m) := by
  have h := fun s x => mirrorTimes_noFuel T s x
  unfold rightMirror
  nofuel
  all_goals exact h _ _

theorem preparePointsSimple_noFuel (nbsym : Int) (T S a b : List α) :
    NoFuel (preparePointsSimple nbsym T S a b) := by
  unfold preparePointsSimple
  nofuel
  · exact leftBound_noFuel _ _ _ _
  · exact rightBound_noFuel _ _ _ _
  · exact leftMirror_noFuel _ _ _ _ _
  · exact rightMirror_noFuel _ _ _ _ _ _

theorem leftParabol_noFuel (nbsym : Int) (T S a b c d : List α) : NoFuel (leftParabol nbsym T S a b c d) := by
  unfold leftParabol
  nofuel

theorem rightParabol_noFuel (nbsym : Int) (T S a b c d : List α) : NoFuel (rightParabol nbsym T S a b c d) := by
  unfold rightParabol
  nofuel

theorem preparePointsParabol_noFuel (nbsym : Int) (T S a b c d : List α) :
    NoFuel (preparePointsParabol nbsym T S a b c d) := by
  unfold preparePointsParabol
  nofuel
  · exact leftParabol_noFuel _ _ _ _ _ _ _
  · exact rightParabol_noFuel _ _ _ _ _ _ _

theorem preparePoints_noFuel (det : Detection) (nbsym : Int) (T S : List α) (e : Extrema α) :
    NoFuel (preparePoints det nbsym T S e) := by
  unfold preparePoints
  split
  · exact preparePointsParabol_noFuel _ _ _ _ _ _ _
  · exact preparePointsSimple_noFuel _ _ _ _ _
  · exact .error (by decide)

end EMD

variable {α : Type} [Add α] [Sub α] [Mul α] [Div α] [Neg α] [LT α] [LE α] [BEq α]
  [DecidableLT α] [DecidableLE α] [NpScalar α]

theorem solve3_noFuel (a b c d e f g h i j k l : α) : NoFuel (solve3 a b c d e f g h i j k l) := by
  unfold solve3
  nofuel

theorem cubicSpline3pts_noFuel (x y T : List α) : NoFuel (cubicSpline3pts x y T) := by
  unfold cubicSpline3pts
  nofuel
  exact solve3_noFuel _ _ _ _ _ _ _ _ _ _ _ _

namespace EMD

theorem splinePoints_noFuel (sp : SciPy α) (kind : SplineKind) (T : List α) (e : List (α × α)) :
    NoFuel (splinePoints sp kind T e) := by
  unfold splinePoints
  nofuel
  exact cubicSpline3pts_noFuel _ _ _

theorem extractMaxMinSpline_noFuel (sp : SciPy α) (d : Detection) (kind : SplineKind) (nbsym : Int) (T S : List α) :
    NoFuel (extractMaxMinSpline sp d kind nbsym T S) := by
  unfold extractMaxMinSpline
  nofuel
  · exact findExtrema_noFuel _ _ _
  · exact preparePoints_noFuel _ _ _ _ _
  · exact splinePoints_noFuel _ _ _ _
  · exact splinePoints_noFuel _ _ _ _

theorem endCondition_noFuel (cfg : Cfg α) (S : List α) (IMF : List (List α)) : NoFuel (endCondition cfg S IMF) := by
  unfold endCondition
  nofuel
  · exact npMaxE_noFuel _
  · exact npMinE_noFuel _

theorem checkImf_noFuel (cfg : Cfg α) (a b : List α) (c d : List (α × α)) : NoFuel (checkImf cfg a b c d) := by
  unfold checkImf
  nofuel
  · exact pyMax_noFuel _
  · exact pyMin_noFuel _

theorem normalizeTime_noFuel (t : List α) : NoFuel (normalizeTime t) := by
  unfold normalizeTime
  nofuel
  exact npMinE_noFuel _

theorem prepareTime_noFuel (cfg : Cfg α) (S : List α) (T : Option (List α)) : NoFuel (prepareTime cfg S T) := by
  unfold prepareTime timeline
  nofuel
  all_goals exact normalizeTime_noFuel _

theorem countExt_noFuel (cfg : Cfg α) (T S : List α) : NoFuel (countExt cfg T S) := by
  unfold countExt
  nofuel
  exact findExtrema_noFuel _ _ _

theorem siftOnce_noFuel (sp : SciPy α) (cfg : Cfg α) (T S : List α) : NoFuel (siftOnce sp cfg T S) := by
  unfold siftOnce
  nofuel
  exact extractMaxMinSpline_noFuel _ _ _ _ _ _

theorem siftBody_noFuel (sp : SciPy α) (cfg : Cfg α) (T : List α) (s : Sift α) : NoFuel (siftBody sp cfg T s) := by
  unfold siftBody
  nofuel
  all_goals first
    | exact countExt_noFuel _ _ _
    | exact siftOnce_noFuel _ _ _ _
    | exact checkImf_noFuel _ _ _ _ _

end EMD
end PyEMD
