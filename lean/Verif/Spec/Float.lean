import Verif.Model.Py
import Mathlib.Data.Real.Basic

/-!
# Floating point arithmetic with rounding

What IEEE 754 guarantees of the operations of a floating point type, as far as the theorems on rounding errors need it: a sum or
difference that does not overflow is the exact one up to the relative error `u` (sums never suffer from underflow), products
and quotients up to `u` and the absolute error `eta` (half of the smallest subnormal number).  For double precision
`u = 2⁻⁵³` and `eta = 2⁻¹⁰⁷⁵`.
-/

namespace PyEMD

variable (α : Type) [Add α] [Sub α] [Mul α] [Div α] [Neg α] [LT α] [LE α] [NpScalar α]

/-- The standard model of floating point arithmetic. -/
structure FloatArith where
  /-- neither infinite nor NaN -/
  finite : α → Prop
  /-- the number a finite float stands for -/
  val : α → ℝ
  u : ℝ
  eta : ℝ
  u_nonneg : 0 ≤ u
  eta_nonneg : 0 ≤ eta
  zero : finite (lit 0) ∧ val (lit 0) = 0
  lit_near : ∀ q : ℚ, |q| ≤ 1 → finite (lit q) ∧ |val (lit q) - q| ≤ u * |(q : ℝ)| + eta
  neg : ∀ a, finite a → finite (-a) ∧ val (-a) = -val a
  lt_iff : ∀ a b, finite a → finite b → (a < b ↔ val a < val b)
  le_iff : ∀ a b, finite a → finite b → (a ≤ b ↔ val a ≤ val b)
  add : ∀ a b, finite (a + b) → finite a ∧ finite b ∧ |val (a + b) - (val a + val b)| ≤ u * |val a + val b|
  sub : ∀ a b, finite (a - b) → finite a ∧ finite b ∧ |val (a - b) - (val a - val b)| ≤ u * |val a - val b|
  mul : ∀ a b, finite (a * b) → finite a ∧ finite b ∧ |val (a * b) - val a * val b| ≤ u * |val a * val b| + eta
  div : ∀ a b, finite (a / b) → finite b → finite a ∧ val b ≠ 0 ∧ |val (a / b) - val a / val b| ≤ u * |val a / val b| + eta

end PyEMD
