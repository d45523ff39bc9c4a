import Verif.Model.Points

/-!
# Specification vocabulary for parabolic detection

None of these definitions is used by the model.
-/

namespace PyEMD
namespace EMD
namespace Spec

/-- `X` and `Y` alternate along the axis, beginning with `X`: `x₀ < y₀ < x₁ < y₁ < ...`, up to the last element of either. -/
inductive Interleaved {K : Type} [LT K] : List K → List K → Prop
  | nil : Interleaved [] []
  | one (a : K) : Interleaved [a] []
  | cons {a b : K} {X Y : List K} : a < b → Interleaved (b :: Y) X → Interleaved (a :: X) (b :: Y)

/-- Knots (position, value) fit for an interpolation over the time stamps `T` of a signal `S` with extrema at `pos` with values `val`:
at least three, strictly increasing positions, from at or before the first to at or after the last time stamp; every extremum is a
knot; every value is that of an extremum or of the first or last sample. -/
structure CoveringKnots {K : Type} [LT K] [LE K] (T S pos val : List K) (knots : List (K × K)) : Prop where
  three : 3 ≤ knots.length
  increasing : knots.Pairwise (fun p q => p.1 < q.1)
  first : ∃ p t, knots.head? = some p ∧ T.head? = some t ∧ p.1 ≤ t
  last : ∃ p t, knots.getLast? = some p ∧ T.getLast? = some t ∧ t ≤ p.1
  extrema : ∀ p ∈ pos.zip val, p ∈ knots
  values : ∀ p ∈ knots, p.2 ∈ val ∨ S.head? = some p.2 ∨ S.getLast? = some p.2

/-- `(t, v)` is the vertex of the parabola with leading coefficient `a` through the points number `i - 1`, `i` and `i + 1`, and lies
between the midpoints to the two neighbours. -/
def VertexAt {K : Type} [Field K] [LinearOrder K] (T S : List K) (i : Nat) (a t v : K) : Prop :=
  ∃ b c Tp T0 Tn Sp S0 Sn, 1 ≤ i ∧
    T[i - 1]? = some Tp ∧ T[i]? = some T0 ∧ T[i + 1]? = some Tn ∧ S[i - 1]? = some Sp ∧ S[i]? = some S0 ∧ S[i + 1]? = some Sn ∧
    a * Tp ^ 2 + b * Tp + c = Sp ∧ a * T0 ^ 2 + b * T0 + c = S0 ∧ a * Tn ^ 2 + b * Tn + c = Sn ∧
    2 * a * t + b = 0 ∧ v = a * t ^ 2 + b * t + c ∧ (Tp + T0) / 2 ≤ t ∧ t < (T0 + Tn) / 2

/-- No vertex is invented for three points on a line.  The code replaces the vanishing leading coefficient of such a triple by `1e-14`, and
so gets a vertex at `-5e13` times the slope of the line; this says that it does not fall between the midpoints to the neighbours. -/
def HarmlessTriple {K : Type} [Field K] [LinearOrder K] (Tp T0 Tn Sp S0 Sn : K) : Prop :=
  (S0 - Sp) * (Tn - T0) = (Sn - S0) * (T0 - Tp) →
    -50000000000000 * ((S0 - Sp) / (T0 - Tp)) < (Tp + T0) / 2 ∨ (T0 + Tn) / 2 ≤ -50000000000000 * ((S0 - Sp) / (T0 - Tp))

/-- Every triple of consecutive points is harmless.  It is enough that no three consecutive points lie on a line. -/
def Regular {K : Type} [Field K] [LinearOrder K] (T S : List K) : Prop :=
  ∀ i Tp T0 Tn Sp S0 Sn, T[i]? = some Tp → T[i + 1]? = some T0 → T[i + 2]? = some Tn → S[i]? = some Sp → S[i + 1]? = some S0 →
    S[i + 2]? = some Sn → HarmlessTriple Tp T0 Tn Sp S0 Sn

/-- Consecutive samples differ. -/
def NoFlat {K : Type} (S : List K) : Prop := ∀ i a b, S[i]? = some a → S[i + 1]? = some b → a ≠ b

end Spec
end EMD
end PyEMD
