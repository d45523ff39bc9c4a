import Mathlib.Algebra.Order.Field.Basic

/-!
# Specification of the knots that are added beyond the edges

None of these definitions is used by the model.  Extrema and knots are pairs (time, value).
-/

namespace PyEMD
namespace EMD
namespace Spec

variable {K : Type} [Field K] [LinearOrder K]

/-- Mirror images over the time `c`. -/
def image (c : K) (ps : List (K × K)) : List (K × K) := ps.map (fun p => (2 * c - p.1, p.2))

/-- The images over the nearest extremum `x` of the next `nb` extrema of both kinds get past the edge `t0`. -/
def PastEdge (nb : Nat) (t0 : K) (x : K × K) (X' Y : List (K × K)) : Prop :=
  (∃ p ∈ image x.1 (X'.take nb), p.1 ≤ t0) ∧ (∃ p ∈ image x.1 (Y.take nb), p.1 ≤ t0)

/-- What is added beyond the first sample `(t0, s0)`.  `X` are the extrema of the kind that comes first, `Y` those of the other kind.

* If the first sample is beyond the first `Y` (`far`) the signal is continued by its image over the first extremum, `nb` extrema of each
  kind, provided that these get past the first sample; otherwise the first `nb` extrema of each kind are mirrored over the first sample.
* If it is not, the first sample counts as an extremum of the kind `Y` and the signal is continued by its image over the first sample. -/
def Edge (nb : Nat) (t0 s0 : K) (far : Prop) (X Y own other : List (K × K)) : Prop :=
  ∃ x X', X = x :: X' ∧
    ((far ∧ PastEdge nb t0 x X' Y ∧ own = image x.1 (X'.take nb) ∧ other = image x.1 (Y.take nb)) ∨
      (far ∧ ¬ PastEdge nb t0 x X' Y ∧ own = image t0 (X.take nb) ∧ other = image t0 (Y.take nb)) ∨
      (¬ far ∧ own = image t0 (X.take nb) ∧ other = image t0 ((t0, s0) :: Y.take (nb - 1))))

/-- The knots added before the first sample: `lx` to the maxima `mx`, `ln` to the minima `mn`. -/
def Added (nb : Nat) (t0 s0 : K) (mx mn lx ln : List (K × K)) : Prop :=
  ∃ x y, mx.head? = some x ∧ mn.head? = some y ∧
    ((x.1 < y.1 ∧ Edge nb t0 s0 (y.2 < s0) mx mn lx ln) ∨ (y.1 < x.1 ∧ Edge nb t0 s0 (s0 < x.2) mn mx ln lx))

/-- Time runs backwards: the time `t` becomes `c - t`. -/
def back (c : K) (ps : List (K × K)) : List (K × K) := (ps.map (fun p => (c - p.1, p.2))).reverse

/-- The knots `kx`, `kn` of the upper and the lower envelope of a signal from `(t0, s0)` to `(t1, s1)` with maxima `mx` and minima `mn`:
the extrema and what the rule adds beyond both edges, in increasing order.  The right edge is the left edge of the signal run backwards. -/
def EnvelopeKnots (nb : Nat) (t0 s0 t1 s1 : K) (mx mn kx kn : List (K × K)) : Prop :=
  ∃ lx ln rx rn, Added nb t0 s0 mx mn lx ln ∧
    Added nb t0 s1 (back (t0 + t1) mx) (back (t0 + t1) mn) (back (t0 + t1) rx) (back (t0 + t1) rn) ∧
    (kx.Pairwise (fun p q => p.1 < q.1) ∧ ∀ p, p ∈ kx ↔ p ∈ lx ∨ p ∈ mx ∨ p ∈ rx) ∧
    (kn.Pairwise (fun p q => p.1 < q.1) ∧ ∀ p, p ∈ kn ↔ p ∈ ln ∨ p ∈ mn ∨ p ∈ rn)

end Spec
end EMD
end PyEMD
