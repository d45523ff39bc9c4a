import Verif.Model.Py

/-!
# Arithmetic that treats positive and negative numbers alike

What the theorem on negated signals needs to know of the numbers.  Exact arithmetic has these properties (`Verif/Lemmas/Symmetric.lean`), and so have the
numbers of IEEE 754, for which rounding to nearest is symmetric (`Verif/Lemmas/IeeeSymmetric.lean`).
-/

namespace PyEMD

/-- Changing all signs changes the signs of sums, differences, products and quotients and turns comparisons round. -/
class Symmetric (α : Type) [Add α] [Sub α] [Mul α] [Div α] [Neg α] [LT α] [LE α] [BEq α] [DecidableLT α] [DecidableLE α] [NpScalar α] : Prop where
  neg_neg (a : α) : - -a = a
  add_comm (a b : α) : a + b = b + a
  neg_add_neg (a b : α) : -a + -b = -(a + b)
  neg_sub (a b : α) : -(a - b) = b - a
  neg_sub_neg (a b : α) : -a - -b = b - a
  neg_mul (a b : α) : -a * b = -(a * b)
  mul_neg (a b : α) : a * -b = -(a * b)
  neg_div (a b : α) : -a / b = -(a / b)
  neg_div_neg (a b : α) (h : (b == lit 0) = false) : -a / -b = a / b
  neg_lt_neg (a b : α) : -a < -b ↔ b < a
  lt_asymm (a b : α) : a < b → ¬ b < a
  /-- zero (and NaN) has no sign -/
  neg_eq (a : α) : ¬ a < lit 0 → ¬ lit 0 < a → -a = a
  zero_mul (a b : α) (h : (a == lit 0) = true) : ¬ a * b < lit 0 ∧ ¬ b * a < lit 0
  neg_beq (a : α) : (-a == lit 0) = (a == lit 0)
  npMax_neg (l : List α) (h : l ≠ []) : npMax (l.map fun x => -x) = -npMin l

end PyEMD
