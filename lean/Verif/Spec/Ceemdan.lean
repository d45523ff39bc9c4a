import Verif.Model.Ceemdan
import Verif.Spec.Eemd

/-!
# Specification vocabulary for `CEEMDAN`

The model's helper functions for accumulation, stages and scaling do not occur here.
-/

namespace PyEMD
namespace CEEMDAN
namespace Spec
open EEMD.Spec (IsMean TimeFor Draw)

variable {α ρ : Type} [Add α] [Sub α] [Mul α] [Div α] [Neg α] [LT α] [LE α] [BEq α]
  [DecidableLT α] [DecidableLE α] [NpScalar α]

/-- `imfs` is the decomposition of the noise `x`, divided by the standard deviation of its first component when
`beta_progress` is set. -/
def NoiseImfs (std : List α → α) (fuel : Nat) (sp : SciPy α) (ecfg : EMD.Cfg α) (beta : Bool) (x : List α) (imfs : List (List α)) : Prop :=
  ∃ R, EMD.emdPure fuel sp ecfg x none (-1) = .ok R ∧
    (beta = false → imfs = R.rows) ∧
    (beta = true → ∃ i, R.rows.head? = some i ∧ imfs = R.rows.map (fun r => r.map (fun y => y / std i)))

/-- `x` is the first component of `S + eps * (first noise component)`, zero if there is no component. -/
def FirstComponent (fuel : Nat) (sp : SciPy α) (ecfg : EMD.Cfg α) (S T : List α) (eps : α) (noiseImfs : List (List α)) (x : List α) : Prop :=
  ∃ i R, noiseImfs.head? = some i ∧
    EMD.emdPure fuel sp ecfg (List.zipWith (fun s y => s + y * eps) S i) (some T) 1 = .ok R ∧
    x = R.rows.head?.getD (List.replicate S.length (lit 0))

/-- `x` is the local mean of `prev + beta * (k-th noise component)`, of `prev` itself when the noise has no such component: what
is left after the first component. -/
def LocalMean (fuel : Nat) (sp : SciPy α) (ecfg : EMD.Cfg α) (prev : List α) (T : Option (List α)) (beta : α) (k : Nat)
    (noiseImfs : List (List α)) (x : List α) : Prop :=
  ∃ R, EMD.emdPure fuel sp ecfg
      (match noiseImfs[k]? with
        | some y => List.zipWith (fun s z => s + z * beta) prev y
        | none => prev) T 1 = .ok R ∧ R.rows.getLast? = some x

/-- `m` is the pointwise mean over the trials of vectors related to the noise decompositions by `P`. -/
def MeanOver [Zero α] (n : Nat) (noise : List (List (List α))) (P : List (List α) → List α → Prop) (m : List α) : Prop :=
  ∃ xs, List.Forall₂ P noise xs ∧ IsMean n xs m

/-- `Ls` are the local means that follow `prev`: the mean over the trials of the local means of their predecessor with the
next noise component (the `k`-th one for the first of them) added with weight `eps * std(predecessor)`. -/
inductive Chain [Zero α] (std : List α → α) (fuel : Nat) (sp : SciPy α) (ecfg : EMD.Cfg α) (T : Option (List α)) (eps : α) (n : Nat)
    (noise : List (List (List α))) : Nat → List α → List (List α) → Prop
  | nil (k : Nat) (prev : List α) : Chain std fuel sp ecfg T eps n noise k prev []
  | cons {k : Nat} {prev L : List α} {Ls : List (List α)} :
      MeanOver n noise (LocalMean fuel sp ecfg prev T (eps * std prev) k) L →
      Chain std fuel sp ecfg T eps n noise (k + 1) L Ls → Chain std fuel sp ecfg T eps n noise k prev (L :: Ls)

end Spec
end CEEMDAN
end PyEMD
