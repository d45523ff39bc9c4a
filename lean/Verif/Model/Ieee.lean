import Verif.Model.Py
import Mathlib.Data.Nat.Log
import Mathlib.Algebra.Order.Ring.Int
import Mathlib.Tactic.Ring
import Mathlib.Tactic.Positivity

/-!
# IEEE 754 binary floating point numbers

`emd` computes in the type of the signal (/repo/PyEMD/EMD.py:807), which for numpy arrays usually is `float64`.  This file gives
`+`, `-`, `*`, `/`, comparisons and literals of the IEEE 754 binary formats: results are rounded to the nearest representable number, ties to the
even one; there are subnormal numbers, infinities and NaN.  A finite number is an integer multiple of the smallest positive subnormal number.

Simplifications: there is one zero (no negative zero) and one NaN; a nonzero number divided by zero has the sign of the number, which is right for a
zero that is not negative.
-/

namespace PyEMD

/-- `n / d` rounded to the nearest integer, ties to even.  IEEE 754 `roundTiesToEven`, the mode of numpy's `float64` (/repo/PyEMD/EMD.py:109). -/
def roundDiv (n d : ℕ) : ℕ :=
  if 2 * (n % d) < d then n / d
  else if d < 2 * (n % d) then n / d + 1
  else n / d + (n / d) % 2

/-- Number of bits of `q` beyond the leading one and `f` more.  (`float64` of /repo/PyEMD/EMD.py:109: `f = 52`.) -/
def excess (f q : ℕ) : ℕ := Nat.log2 q - f

/-- `n / d` rounded to an integer with `f + 1` significant bits (`float64` of /repo/PyEMD/EMD.py:109: `f = 52`). -/
def rndNat (f n d : ℕ) : ℕ := roundDiv n (d * 2 ^ excess f (n / d)) * 2 ^ excess f (n / d)

/-- The same for a signed numerator (`float64` of /repo/PyEMD/EMD.py:109: `f = 52`). -/
def rndInt (f : ℕ) (n : ℤ) (d : ℕ) : ℤ := if n < 0 then -(rndNat f n.natAbs d : ℤ) else rndNat f n.natAbs d

theorem roundDiv_of_dvd (n d : ℕ) (hd : 0 < d) (h : d ∣ n) : roundDiv n d = n / d := by
  rw [roundDiv, if_pos]
  rw [Nat.mod_eq_zero_of_dvd h]
  omega

theorem roundDiv_le (n d : ℕ) : roundDiv n d ≤ n / d + 1 := by
  unfold roundDiv
  split_ifs <;> omega

theorem le_roundDiv (n d : ℕ) : n / d ≤ roundDiv n d := by
  unfold roundDiv
  split_ifs <;> omega

/-- A number of at most `f + 1` significant bits is not changed by rounding. -/
theorem rndNat_exact (f k s : ℕ) (hk : k ≤ 2 ^ (f + 1)) : rndNat f (k * 2 ^ s) 1 = k * 2 ^ s := by
  have hdvd : 2 ^ excess f (k * 2 ^ s) ∣ k * 2 ^ s := by
    by_cases h0 : k = 0
    · simp [h0]
    · by_cases h1 : k = 2 ^ (f + 1)
      · rw [h1, ← pow_add]
        refine pow_dvd_pow 2 ?_
        rw [excess, Nat.log2_two_pow]
        omega
      · refine Dvd.dvd.mul_left (pow_dvd_pow 2 ?_) k
        have hlt : k * 2 ^ s < 2 ^ (f + 1 + s) := by
          rw [pow_add]
          exact Nat.mul_lt_mul_of_pos_right (by omega) (by positivity)
        have : Nat.log2 (k * 2 ^ s) < f + 1 + s := (Nat.log2_lt (by positivity)).2 hlt
        rw [excess]
        omega
  rw [rndNat, Nat.div_one, one_mul, roundDiv_of_dvd _ _ (by positivity) hdvd, Nat.div_mul_cancel hdvd]

/-- Rounding gives at most `f + 1` significant bits. -/
theorem roundDiv_excess (f n d : ℕ) (hd : 0 < d) : roundDiv n (d * 2 ^ excess f (n / d)) ≤ 2 ^ (f + 1) := by
  refine (roundDiv_le _ _).trans ?_
  rw [← Nat.div_div_eq_div_mul]
  have hq : n / d < 2 ^ (f + 1) * 2 ^ excess f (n / d) := by
    rw [← pow_add]
    by_cases h0 : n / d = 0
    · rw [h0]; positivity
    · refine (Nat.log2_lt h0).1 ?_
      rw [excess]
      omega
  have := (Nat.div_lt_iff_lt_mul (by positivity)).2 hq
  omega

theorem rndNat_idem (f n d : ℕ) (hd : 0 < d) : rndNat f (rndNat f n d) 1 = rndNat f n d := by
  rw [show rndNat f n d = roundDiv n (d * 2 ^ excess f (n / d)) * 2 ^ excess f (n / d) from rfl]
  exact rndNat_exact f _ _ (roundDiv_excess f n d hd)

theorem rndNat_zero (f d : ℕ) : rndNat f 0 d = 0 := by
  simp [rndNat, roundDiv, excess]

theorem rndInt_idem (f : ℕ) (n : ℤ) (d : ℕ) (hd : 0 < d) : rndInt f (rndInt f n d) 1 = rndInt f n d := by
  unfold rndInt
  have h := rndNat_idem f n.natAbs d hd
  by_cases hn : n < 0
  · rw [if_pos hn]
    by_cases h0 : rndNat f n.natAbs d = 0
    · simp [h0, rndNat_zero]
    · rw [if_pos (by omega), Int.natAbs_neg, Int.natAbs_natCast, h]
  · rw [if_neg hn, if_neg (by omega), Int.natAbs_natCast, h]

theorem rndInt_neg (f : ℕ) (n : ℤ) (d : ℕ) : rndInt f (-n) d = -rndInt f n d := by
  unfold rndInt
  rw [Int.natAbs_neg]
  rcases lt_trichotomy n 0 with h | h | h
  · rw [if_neg (by omega), if_pos h, neg_neg]
  · subst h; simp [rndNat_zero]
  · rw [if_pos (by omega), if_neg (by omega)]

/-- `m` units are a finite number of the format with `f` fraction bits, unit `2⁻ᵉ` and overflow at `2ᴱ`
(`float64` of /repo/PyEMD/EMD.py:109: 52, 1074 and 1024). -/
def Rep (f e E : ℕ) (m : ℤ) : Prop := rndInt f m 1 = m ∧ m.natAbs < 2 ^ (E + e)

instance (f e E : ℕ) (m : ℤ) : Decidable (Rep f e E m) := inferInstanceAs (Decidable (_ ∧ _))

/-- The numbers of an IEEE 754 binary format: finite ones in multiples of the unit `2⁻ᵉ`, two infinities (`inf true` is the negative one) and NaN.
/repo/PyEMD/EMD.py:807 (`DTYPE`). -/
inductive Ieee (f e E : ℕ)
  | nan
  | inf (neg : Bool)
  | num (m : ℤ) (h : Rep f e E m)
  deriving DecidableEq

/-- `float64`, /repo/PyEMD/EMD.py:109, 807. -/
abbrev F64 := Ieee 52 1074 1024

/-- `float32`: signals of this type are sifted in it, /repo/PyEMD/EMD.py:807; the array of components is `float64` all the same (line 820, `Model/Mixed.lean`). -/
abbrev F32 := Ieee 23 149 128

/-- `float16`: signals of this type are sifted in it, /repo/PyEMD/EMD.py:807; the array of components is `float64` all the same (line 820, `Model/Mixed.lean`). -/
abbrev F16 := Ieee 10 24 16

namespace Ieee
variable {f e E : ℕ}

/-- `n / d` units, rounded; infinite when that overflows.  (Arithmetic of `float64`, /repo/PyEMD/EMD.py:109.) -/
def round (n : ℤ) (d : ℕ) (hd : 0 < d) : Ieee f e E :=
  if h : (rndInt f n d).natAbs < 2 ^ (E + e) then num (rndInt f n d) ⟨rndInt_idem f n d hd, h⟩ else inf (decide (n < 0))

/-- `-x` (`np.abs` at /repo/PyEMD/EMD.py:714 negates negative numbers). -/
def neg : Ieee f e E → Ieee f e E
  | nan => nan
  | inf s => inf (!s)
  | num m h => num (-m) ⟨by rw [rndInt_neg, h.1], by rw [Int.natAbs_neg]; exact h.2⟩

/-- `x + y` (e.g. /repo/PyEMD/EMD.py:847). -/
def add : Ieee f e E → Ieee f e E → Ieee f e E
  | num a _, num b _ => round (a + b) 1 Nat.one_pos
  | inf s, inf t => if s = t then inf s else nan
  | inf s, num _ _ => inf s
  | num _ _, inf t => inf t
  | _, _ => nan

/-- `x * y` (e.g. /repo/PyEMD/EMD.py:638). -/
def mul : Ieee f e E → Ieee f e E → Ieee f e E
  | num a _, num b _ => round (a * b) (2 ^ e) (Nat.two_pow_pos e)
  | inf s, inf t => inf (s != t)
  | inf s, num b _ => if b = 0 then nan else inf (s != decide (b < 0))
  | num a _, inf t => if a = 0 then nan else inf (decide (a < 0) != t)
  | _, _ => nan

/-- `x / y` (e.g. /repo/PyEMD/EMD.py:756); zero stands for the zero that is not negative. -/
def div : Ieee f e E → Ieee f e E → Ieee f e E
  | num a _, num b _ =>
    if h : b = 0 then (if a = 0 then nan else inf (decide (a < 0)))
    else round (if b < 0 then -(a * 2 ^ e) else a * 2 ^ e) b.natAbs (Int.natAbs_pos.2 h)
  | inf s, num b _ => inf (s != decide (b < 0))
  | num _ _, inf _ => round 0 1 Nat.one_pos
  | _, _ => nan

/-- `x < y` (e.g. /repo/PyEMD/EMD.py:638). -/
def lt : Ieee f e E → Ieee f e E → Bool
  | num a _, num b _ => decide (a < b)
  | inf s, inf t => s && !t
  | inf s, num _ _ => s
  | num _ _, inf t => !t
  | _, _ => false

/-- `x == y` (e.g. /repo/PyEMD/EMD.py:624). -/
def beq : Ieee f e E → Ieee f e E → Bool
  | num a _, num b _ => decide (a = b)
  | inf s, inf t => s == t
  | _, _ => false

/-- `max` and `min` of numpy: NaN if one of the numbers is.  (`np.max`, `np.min`: /repo/PyEMD/EMD.py:710.) -/
def pick (first : Ieee f e E → Ieee f e E → Bool) : Ieee f e E → Ieee f e E → Ieee f e E
  | nan, _ => nan
  | _, nan => nan
  | x, y => if first x y then x else y

instance : Neg (Ieee f e E) := ⟨neg⟩
instance : Add (Ieee f e E) := ⟨add⟩
instance : Sub (Ieee f e E) := ⟨fun x y => add x (neg y)⟩
instance : Mul (Ieee f e E) := ⟨mul⟩
instance : Div (Ieee f e E) := ⟨div⟩
instance : LT (Ieee f e E) := ⟨fun x y => lt x y = true⟩
instance : LE (Ieee f e E) := ⟨fun x y => (lt x y || beq x y) = true⟩
instance : BEq (Ieee f e E) := ⟨beq⟩
instance : DecidableLT (Ieee f e E) := fun x y => inferInstanceAs (Decidable (lt x y = true))
instance : DecidableLE (Ieee f e E) := fun x y => inferInstanceAs (Decidable ((lt x y || beq x y) = true))

/-- Literals are rounded; `astype(int)` truncates (0 stands for the unspecified result for an infinity or NaN); sums run from left to right, which
for numpy is so for fewer than eight numbers (`np.sum`, /repo/PyEMD/EMD.py:714, 737).  /repo/PyEMD/EMD.py:807. -/
instance : NpScalar (Ieee f e E) where
  lit q := round (q.num * 2 ^ e) q.den q.den_pos
  toInt x := match x with
    | num m _ => m.tdiv (2 ^ e)
    | _ => 0
  npSum l := l.foldl (· + ·) (round 0 1 Nat.one_pos)
  npMax l := match l with
    | [] => nan
    | x :: xs => xs.foldl (pick (fun a b => lt b a)) x
  npMin l := match l with
    | [] => nan
    | x :: xs => xs.foldl (pick (fun a b => lt a b)) x

/-- A numpy number is infinite or NaN or not (`np.isfinite`), /repo/PyEMD/EMD.py:109. -/
def isFinite : Ieee f e E → Bool
  | num _ _ => true
  | _ => false

end Ieee
end PyEMD
