import Verif.Model.Emd

/-!
# Specification vocabulary for `EMD.emd`

None of these definitions is used by the model.
-/

namespace PyEMD
namespace EMD
namespace Spec

variable {α : Type} [Add α] [Sub α] [Mul α] [Div α] [Neg α] [LT α] [LE α] [BEq α]
  [DecidableLT α] [DecidableLE α] [NpScalar α]

/-- Left-to-right sum of sample `i` over the rows (`0` for no rows). -/
def colSum (rows : List (List α)) (i : Nat) : α := (rows.map (fun r => r.getD i (lit 0))).foldl (· + ·) (lit 0)

/-- Entry `i` of an array that numpy may broadcast. -/
def bget (l : List α) (i : Nat) : Option α := if l.length = 1 then l[0]? else l[i]?

/-- `y` is `x` minus the mean of the upper and lower envelope of `x`, sample by sample. -/
def SubtractsMean (sp : SciPy α) (cfg : Cfg α) (T x y : List α) : Prop :=
  ∃ env, extractMaxMinSpline sp cfg.detection cfg.splineKind cfg.nbsym T x = .ok (some env) ∧
    y.length = x.length ∧
    ∀ i < x.length, ∃ xi u l, x[i]? = some xi ∧ bget env.maxEnv i = some u ∧ bget env.minEnv i = some l ∧
      y[i]? = some (xi - lit (1 / 2) * (u + l))

/-- A non-empty list of successive proto-IMFs, the latest first, each obtained from the one before by one
subtraction of the envelope mean. -/
inductive SiftSeq (sp : SciPy α) (cfg : Cfg α) (T : List α) : List (List α) → Prop
  | start (x : List α) : SiftSeq sp cfg T [x]
  | step {x y : List α} {xs : List (List α)} : SiftSeq sp cfg T (x :: xs) → SubtractsMean sp cfg T x y →
      SiftSeq sp cfg T (y :: x :: xs)

/-- `seq` leads from `x` to `y` with `m` subtractions. -/
def SiftPath (sp : SciPy α) (cfg : Cfg α) (T : List α) (m : Nat) (x y : List α) (seq : List (List α)) : Prop :=
  SiftSeq sp cfg T seq ∧ seq.length = m + 1 ∧ seq.head? = some y ∧ seq.getLast? = some x

/-- Number of extrema and number of zero crossings that `find_extrema` reports differ by at most one. -/
def ImfLike (cfg : Cfg α) (T x : List α) : Prop :=
  ∃ e, findExtrema cfg.detection T x = .ok e ∧
    |((e.maxPos.length + e.minPos.length : Nat) : Int) - (e.indzer.length : Int)| ≤ 1

/-- `find_extrema` reports at most two extrema. -/
def FewExtrema (cfg : Cfg α) (T x : List α) : Prop :=
  ∃ e, findExtrema cfg.detection T x = .ok e ∧ e.maxPos.length + e.minPos.length ≤ 2

/-- `r` is `S` minus the sum of the rows, sample by sample. -/
def IsResidue (S : List α) (rows : List (List α)) (r : List α) : Prop :=
  r.length = S.length ∧ ∀ i < S.length, ∃ s, S[i]? = some s ∧ r[i]? = some (s - colSum rows i)

/-- All samples are within the tolerance of `np.allclose(r, 0)`. -/
def Vanishes (r : List α) : Prop := ∀ x ∈ r, pyAbs x ≤ lit (1 / 100000000)

end Spec
end EMD
end PyEMD
