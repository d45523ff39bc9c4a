import Verif.Model.Eemd
import Mathlib.Data.Rat.Floor

/-!
# Missing samples

A missing sample is represented by the floating point value NaN.  `NotANumber z` lists what IEEE 754 and numpy say of it.  `Gappy` is the smallest
arithmetic with such a value: the rational numbers and one more element.
-/

namespace PyEMD

section
variable {α ρ : Type} [Add α] [Sub α] [Mul α] [Div α] [Neg α] [LT α] [LE α] [BEq α]
  [DecidableLT α] [DecidableLE α] [NpScalar α]

/-- `z` behaves like NaN: every operation with it gives it, no comparison with it holds, and it is the maximum and the minimum (`np.max`, `np.min`)
of every array that contains it.  (The last law is one of all floating point numbers.) -/
structure NotANumber (z : α) : Prop where
  add_left : ∀ x, z + x = z
  add_right : ∀ x, x + z = z
  sub_left : ∀ x, z - x = z
  sub_right : ∀ x, x - z = z
  mul_left : ∀ x, z * x = z
  mul_right : ∀ x, x * z = z
  div_left : ∀ x, z / x = z
  not_lt_left : ∀ x, ¬ z < x
  not_lt_right : ∀ x, ¬ x < z
  not_le_left : ∀ x, ¬ z ≤ x
  not_beq : ∀ x, (z == x) = false
  max_mem : ∀ l : List α, z ∈ l → npMax l = z
  min_mem : ∀ l : List α, z ∈ l → npMin l = z
  sub_zero : ∀ x : α, x - lit 0 = x

/-- Normally distributed noise of width NaN consists of NaN. -/
def SpoiledBy (rng : Rng α ρ) (z : α) : Prop := ∀ r n, (rng.normal r z n).1 = List.replicate n z

end

/-- The rational numbers and NaN. -/
inductive Gappy
  | nan
  | num (q : ℚ)
  deriving DecidableEq

namespace Gappy

/-- An operation on numbers; NaN if one of them is. -/
def lift (f : ℚ → ℚ → ℚ) : Gappy → Gappy → Gappy
  | num a, num b => num (f a b)
  | _, _ => nan

/-- A comparison of numbers; false if one of them is NaN. -/
def liftB (f : ℚ → ℚ → Bool) : Gappy → Gappy → Bool
  | num a, num b => f a b
  | _, _ => false

instance : Add Gappy := ⟨lift (· + ·)⟩
instance : Sub Gappy := ⟨lift (· - ·)⟩
instance : Mul Gappy := ⟨lift (· * ·)⟩
instance : Div Gappy := ⟨fun a b => if b = num 0 then nan else lift (· / ·) a b⟩
instance : Neg Gappy := ⟨fun a => lift (· - ·) (num 0) a⟩
instance : LT Gappy := ⟨fun a b => liftB (fun x y => decide (x < y)) a b = true⟩
instance : LE Gappy := ⟨fun a b => liftB (fun x y => decide (x ≤ y)) a b = true⟩
instance : BEq Gappy := ⟨liftB (fun x y => decide (x = y))⟩
instance : DecidableLT Gappy := fun a b => inferInstanceAs (Decidable (liftB _ a b = true))
instance : DecidableLE Gappy := fun a b => inferInstanceAs (Decidable (liftB _ a b = true))

instance : NpScalar Gappy where
  lit q := num q
  toInt x := match x with
    | nan => 0
    | num q => toInt q
  npSum l := l.foldl (· + ·) (num 0)
  npMax l := match l with
    | [] => nan
    | x :: xs => xs.foldl (lift max) x
  npMin l := match l with
    | [] => nan
    | x :: xs => xs.foldl (lift min) x

theorem lift_nan_left (f : ℚ → ℚ → ℚ) (x : Gappy) : lift f nan x = nan := rfl

theorem lift_nan_right (f : ℚ → ℚ → ℚ) (x : Gappy) : lift f x nan = nan := by cases x <;> rfl

theorem foldl_lift (f : ℚ → ℚ → ℚ) (l : List Gappy) : l.foldl (lift f) nan = nan := by
  induction l with
  | nil => rfl
  | cons x l ih => rw [List.foldl_cons, lift_nan_left, ih]

theorem foldl_lift_mem (f : ℚ → ℚ → ℚ) (l : List Gappy) (h : nan ∈ l) (a : Gappy) : l.foldl (lift f) a = nan := by
  induction l generalizing a with
  | nil => simp at h
  | cons x l ih =>
    rw [List.foldl_cons]
    rcases List.mem_cons.1 h with rfl | h
    · rw [lift_nan_right, foldl_lift]
    · exact ih h _

theorem npMax_nan (l : List Gappy) (h : nan ∈ l) : npMax l = nan := by
  cases l with
  | nil => simp at h
  | cons x l =>
    show l.foldl (lift max) x = nan
    rcases List.mem_cons.1 h with rfl | h
    · exact foldl_lift _ _
    · exact foldl_lift_mem _ _ h _

theorem npMin_nan (l : List Gappy) (h : nan ∈ l) : npMin l = nan := by
  cases l with
  | nil => simp at h
  | cons x l =>
    show l.foldl (lift min) x = nan
    rcases List.mem_cons.1 h with rfl | h
    · exact foldl_lift _ _
    · exact foldl_lift_mem _ _ h _

theorem notANumber : NotANumber nan where
  add_left _ := rfl
  add_right := lift_nan_right _
  sub_left _ := rfl
  sub_right := lift_nan_right _
  mul_left _ := rfl
  mul_right := lift_nan_right _
  div_left x := by
    show (if x = num 0 then nan else lift (· / ·) nan x) = nan
    split <;> rfl
  not_lt_left _ := by rintro ⟨⟩
  not_lt_right x := by cases x <;> rintro ⟨⟩
  not_le_left _ := by rintro ⟨⟩
  not_beq _ := rfl
  max_mem := npMax_nan
  min_mem := npMin_nan
  sub_zero x := by
    cases x with
    | nan => rfl
    | num q => show num (q - 0) = num q; rw [_root_.sub_zero]

end Gappy
end PyEMD
