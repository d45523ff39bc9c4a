import Verif.Model.Eemd
import Mathlib.Data.List.Forall2
import Mathlib.Algebra.Order.Floor.Div

/-!
# Specification vocabulary for `EEMD`

The model's helper functions for noise, chunks, dictionaries and averages do not occur here.
-/

namespace PyEMD
namespace EEMD
namespace Spec

variable {α ρ : Type} [Add α] [Sub α] [Mul α] [Div α] [Neg α] [LT α] [LE α] [BEq α]
  [DecidableLT α] [DecidableLE α] [NpScalar α]

/-- `x` is one draw of `n` samples from the generator in state `r`, which is then in state `r'`. -/
def Draw (rng : Rng α ρ) (kind : NoiseKind) (scale : α) (n : Nat) (r : ρ) (x : List α) (r' : ρ) : Prop :=
  (kind = .normal ∧ rng.normal r scale n = (x, r')) ∨
  (kind = .uniform ∧ rng.uniform r (-scale / lit 2) (scale / lit 2) n = (x, r'))

/-- `xs` are consecutive draws, which take the generator from state `r` to state `r'`. -/
inductive Stream (rng : Rng α ρ) (kind : NoiseKind) (scale : α) (n : Nat) : ρ → List (List α) → ρ → Prop
  | nil (r : ρ) : Stream rng kind scale n r [] r
  | cons {r r' r'' : ρ} {x : List α} {xs : List (List α)} : Draw rng kind scale n r x r' → Stream rng kind scale n r' xs r'' →
      Stream rng kind scale n r (x :: xs) r''

/-- The generator returns as many samples as asked for. -/
def Sized (rng : Rng α ρ) : Prop :=
  (∀ r s n, (rng.normal r s n).1.length = n) ∧ (∀ r a b n, (rng.uniform r a b n).1.length = n)

/-- Noise of zero width is zero. -/
def ZeroScale (rng : Rng α ρ) : Prop :=
  (∀ r n, (rng.normal r (lit 0) n).1 = List.replicate n (lit 0)) ∧
  (∀ r n, (rng.uniform r (lit 0) (lit 0) n).1 = List.replicate n (lit 0))

/-- The time array of the trials: the user's, or 0, 1, ..., n-1. -/
def TimeFor (S : List α) (T : Option (List α)) (T' : List α) : Prop :=
  match T with
  | some t => T' = t
  | none => T' = (List.range S.length).map (fun k : Nat => lit (k : ℚ))

/-- Width of the noise: `noise_width * |max S - min S|`. -/
def ScaleFor (w : α) (S : List α) (s : α) : Prop := s = w * pyAbs (npMax S - npMin S)

/-- Decomposing `S + noise` gives the components `out.1` and, when trends are separated, the trend `out.2`. -/
def TrialOf (fuel : Nat) (sp : SciPy α) (sep : Bool) (ecfg : EMD.Cfg α) (S T : List α) (m : Int) (noise : List α)
    (out : List (List α) × Option (List α)) : Prop :=
  ∃ R, EMD.emdPure fuel sp ecfg (List.zipWith (fun s x => s + x) S noise) (some T) m = .ok R ∧
    (sep = false → out = (R.rows, none)) ∧
    (sep = true → ∃ imfs trend, EMD.Obj.getImfsAndTrend ⟨ecfg, some R.imfs, some R.residue⟩ = .ok (imfs, trend) ∧
      out = (imfs, some trend))

/-- `order` is an order in which the chunks of a pool of `p` processes can finish: the chunk size is
`ceil(trials / (4 p))`, and each of the `ceil(trials / chunk size)` chunks finishes once. -/
def Schedule (trials p : Nat) (order : List Nat) : Prop :=
  0 < p ∧ order.Perm (List.range (trials ⌈/⌉ (trials ⌈/⌉ (4 * p))))

/-- What a successful call of `eemd` on the object `o` computed, leaving the object `o'`: `trials` decompositions of the
signal plus noise.  In sequential mode the noises are consecutive draws; in parallel mode they repeat the first
`ceil(trials / (4 processes))` draws. -/
structure Ran (rng : Rng α ρ) (fuel : Nat) (sp : SciPy α) (o o' : Obj α ρ) (S : List α) (T : Option (List α)) (m : Int)
    (T' : List α) (scale : α) (noises : List (List α)) (outs : List (List (List α) × Option (List α))) : Prop where
  signal : S ≠ []
  time : TimeFor S T T'
  width : ScaleFor o.cfg.noiseWidth S scale
  count : outs.length = o.cfg.trials
  trial : List.Forall₂ (TrialOf fuel sp o.cfg.separateTrends o.emd.cfg S T' m) noises outs
  sequential : o.cfg.parallel = false → Stream rng o.cfg.noiseKind scale S.length o.random noises o'.random
  parallel : o.cfg.parallel = true → o'.random = o.random ∧ ∃ first r', Stream rng o.cfg.noiseKind scale S.length o.random first r' ∧
        first.length = o.cfg.trials ⌈/⌉ (4 * o.cfg.processes) ∧ ∀ t < o.cfg.trials, noises[t]? = first[t % first.length]?
  sized : Sized rng → ∀ x ∈ noises, x.length = S.length

/-- The components of order `k` over the trials that have one. -/
def order {β : Type} (trials : List (List β)) (k : Nat) : List β := trials.filterMap (fun c => c[k]?)

/-- `row` is the pointwise mean of `rows`, which all have `n` samples. -/
def IsMean [Zero α] (n : Nat) (rows : List (List α)) (row : List α) : Prop :=
  row.length = n ∧ ∀ i < n, row[i]? = some ((rows.map (fun r => r.getD i (lit 0))).sum / lit (rows.length : ℚ))

/-- One row per order, each the mean over the trials that have this order. -/
def Averages [Zero α] (n : Nat) (trials : List (List (List α))) (E : List (List α)) : Prop :=
  (∀ k, k < E.length ↔ ∃ c ∈ trials, k < c.length) ∧ ∀ k row, E[k]? = some row → IsMean n (order trials k) row

end Spec
end EEMD
end PyEMD
