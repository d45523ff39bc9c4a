import Verif.Model.Emd

/-!
# Specification vocabulary for signals run backwards

None of these definitions is used by the model.
-/

namespace PyEMD
namespace EMD
namespace Spec

variable {K : Type}

section
variable {α : Type} [Add α] [Sub α] [Mul α] [Div α] [Neg α] [LT α] [LE α] [BEq α] [DecidableLT α] [DecidableLE α] [NpScalar α]

/-- The proto-IMFs that occur while one IMF is sifted, from the state `s` on. -/
inductive Visits (sp : SciPy α) (cfg : Cfg α) (T : List α) : Sift α → List α → Prop
  | here (s : Sift α) : Visits sp cfg T s s.imf
  | last {s s' : Sift α} {why : SiftEnd} : siftBody sp cfg T s = .ok (.brk s' why) → Visits sp cfg T s s'.imf
  | step {s s' : Sift α} {x : List α} : siftBody sp cfg T s = .ok (.cont s') → Visits sp cfg T s' x → Visits sp cfg T s x

/-- The signals that occur in a decomposition of `S` into at most `m` IMFs once `rounds` have been done. -/
inductive Occurs (sp : SciPy α) (cfg : Cfg α) (T S : List α) (m : Int) : List (Round α) → Int → List α → Prop
  | sift {rounds : List (Round α)} {e : Int} {x : List α} :
      Visits sp cfg T { n := 0, nh := 0, extNo := e, imf := vsub S (sumRows S.length (rounds.map (·.imf))), subs := 0 } x →
      Occurs sp cfg T S m rounds e x
  | next {rounds : List (Round α)} {e : Int} {x : List α} {s : Sift α} {why : SiftEnd} :
      emdRound sp cfg T S (rounds.map (·.imf)) e = .ok (s, why) →
      endCondition cfg S ((rounds ++ [({ imf := s.imf, why, subs := s.subs, nh := s.nh } : Round α)]).map (·.imf)) = .ok false →
      ((rounds.length : Int) + 1 ≠ m) → why ≠ .trend →
      Occurs sp cfg T S m (rounds ++ [{ imf := s.imf, why, subs := s.subs, nh := s.nh }]) s.extNo x →
      Occurs sp cfg T S m rounds e x

end

/-- No two neighbouring samples are equal. -/
def NoTies (S : List K) : Prop := ∀ i, i + 1 < S.length → S[i]? ≠ S[i + 1]?

/-- The interpolator does not prefer a direction of time: for increasing knots and evaluation points in their range, the interpolation
of the knots run backwards is the interpolation run backwards. -/
def Reversible [Sub K] [LT K] [LE K] (f : Interp K) : Prop :=
  ∀ (c : K) (X Y t : List K), 3 ≤ X.length → X.length = Y.length → X.Pairwise (· < ·) →
    (∀ τ ∈ t, ∃ a b, X.head? = some a ∧ X.getLast? = some b ∧ a ≤ τ ∧ τ ≤ b) →
    f (X.map (fun x => c - x)).reverse Y.reverse (t.map (fun x => c - x)).reverse = (f X Y t).map List.reverse

/-- No interpolator prefers a direction of time. -/
def ReversibleAll [Sub K] [LT K] [LE K] (sp : SciPy K) : Prop :=
  Reversible sp.akima ∧ Reversible sp.cubic ∧ Reversible sp.pchip ∧ Reversible sp.cubicHermite ∧ Reversible sp.slinear ∧
    Reversible sp.quadratic ∧ Reversible sp.linear

end Spec
end EMD
end PyEMD
