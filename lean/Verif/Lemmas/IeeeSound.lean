import Verif.Lemmas.Ieee
import Mathlib.Data.EReal.Operations

/-!
# What IEEE 754 asks of the model of its numbers

`Model/Ieee.lean` rounds by formulas.  IEEE 754 asks for the nearest number of the format, the one with an even significand if two are nearest, and for
the order of the extended real numbers.
-/

namespace PyEMD

/-- No integer is nearer to `n / d` than the rounded one. -/
theorem roundDiv_nearest (n d k : ℕ) (hd : 0 < d) : |(roundDiv n d : ℝ) - n / d| ≤ |(k : ℝ) - n / d| := by
  have h := roundDiv_err n d hd
  by_cases hk : k = roundDiv n d
  · rw [hk]
  · have h1 : (1 : ℝ) ≤ |(k : ℝ) - roundDiv n d| := by
      have : (1 : ℤ) ≤ |(k : ℤ) - roundDiv n d| := Int.one_le_abs (by omega)
      exact_mod_cast this
    have h2 : |(k : ℝ) - roundDiv n d| ≤ |(k : ℝ) - n / d| + |(n / d : ℝ) - roundDiv n d| := abs_sub_le _ _ _
    rw [abs_sub_comm (n / d : ℝ)] at h2
    linarith

/-- If another integer is as near, the rounded one is even. -/
theorem roundDiv_even (n d k : ℕ) (hd : 0 < d) (hk : k ≠ roundDiv n d) (h : |(roundDiv n d : ℝ) - n / d| = |(k : ℝ) - n / d|) :
    roundDiv n d % 2 = 0 := by
  have hd' : (0 : ℝ) < d := by exact_mod_cast hd
  have hn : (n : ℝ) / d = (n / d : ℕ) + ((n % d : ℕ) : ℝ) / d := by
    have : (n : ℝ) = d * (n / d : ℕ) + (n % d : ℕ) := by exact_mod_cast (Nat.div_add_mod n d).symm
    rw [this]
    field_simp
  have h1 := roundDiv_err n d hd
  have h2 : (1 : ℝ) ≤ |(k : ℝ) - roundDiv n d| := by
    have : (1 : ℤ) ≤ |(k : ℤ) - roundDiv n d| := Int.one_le_abs (by omega)
    exact_mod_cast this
  have h3 : |(k : ℝ) - roundDiv n d| ≤ |(k : ℝ) - n / d| + |(n / d : ℝ) - roundDiv n d| := abs_sub_le _ _ _
  rw [abs_sub_comm (n / d : ℝ)] at h3
  have h4 : |(roundDiv n d : ℝ) - n / d| = 1 / 2 := by linarith
  unfold roundDiv at h4 ⊢
  split_ifs at h4 ⊢ with c1 c2
  · exfalso
    have : ((n % d : ℕ) : ℝ) / d < 1 / 2 := by
      rw [div_lt_div_iff₀ hd' two_pos]
      have : (2 : ℝ) * (n % d : ℕ) < d := by exact_mod_cast c1
      linarith
    have h0 : 0 ≤ ((n % d : ℕ) : ℝ) / d := by positivity
    rw [hn, abs_sub_comm, abs_of_nonneg (by linarith)] at h4
    linarith
  · exfalso
    have : 1 / 2 < ((n % d : ℕ) : ℝ) / d := by
      rw [div_lt_div_iff₀ two_pos hd']
      have : (d : ℝ) < 2 * (n % d : ℕ) := by exact_mod_cast c2
      linarith
    have h0 : ((n % d : ℕ) : ℝ) / d < 1 := by
      rw [div_lt_one hd']
      exact_mod_cast Nat.mod_lt n hd
    rw [hn] at h4
    push_cast at h4
    rw [abs_of_nonneg (by linarith)] at h4
    linarith
  · omega

/-- Numbers that rounding leaves alone are multiples of their last place. -/
theorem dvd_of_rnd {f m : ℕ} (h : rndNat f m 1 = m) : 2 ^ excess f m ∣ m := by
  rw [rndNat, Nat.div_one] at h
  exact ⟨_, by rw [mul_comm]; exact h.symm⟩

/-- No number with `f + 1` significant bits is nearer to `n / d` than the rounded one. -/
theorem rndNat_nearest (f n d m : ℕ) (hd : 0 < d) (hm : rndNat f m 1 = m) : |(rndNat f n d : ℝ) - n / d| ≤ |(m : ℝ) - n / d| := by
  have hd' : (0 : ℝ) < d := by exact_mod_cast hd
  have key : ∀ k : ℕ, |(rndNat f n d : ℝ) - n / d| ≤ |((k * 2 ^ excess f (n / d) : ℕ) : ℝ) - n / d| := by
    intro k
    have h := roundDiv_nearest n (d * 2 ^ excess f (n / d)) k (by positivity)
    have hp : (0 : ℝ) < 2 ^ excess f (n / d) := by positivity
    have e : ∀ x : ℝ, x * 2 ^ excess f (n / d) - n / d = (x - n / (d * 2 ^ excess f (n / d))) * 2 ^ excess f (n / d) := by
      intro x
      field_simp
    rw [rndNat]
    push_cast at h ⊢
    rw [e, e, abs_mul, abs_mul]
    exact mul_le_mul_of_nonneg_right h (abs_nonneg _)
  by_cases hx : excess f (n / d) ≤ excess f m
  · obtain ⟨k, hk⟩ := (pow_dvd_pow 2 hx).trans (dvd_of_rnd hm)
    have := key k
    rwa [mul_comm, ← hk] at this
  · have h0 : n / d ≠ 0 := by
      intro h0
      rw [h0] at hx
      simp [excess] at hx
    have h1 : 2 ^ (f + excess f (n / d)) ≤ n / d := by
      have : f + excess f (n / d) = Nat.log2 (n / d) := by
        rw [excess] at hx ⊢
        omega
      rw [this]
      exact Nat.log2_self_le h0
    have h2 : m ≤ 2 ^ (f + excess f (n / d)) := by
      by_cases hm0 : m = 0
      · rw [hm0]; positivity
      · exact ((Nat.log2_lt hm0).1 (by unfold excess at hx ⊢; omega)).le
    have h3 := key (2 ^ f)
    rw [← pow_add] at h3
    have h4 : ((2 ^ (f + excess f (n / d)) : ℕ) : ℝ) ≤ n / d := by
      refine le_trans (b := ((n / d : ℕ) : ℝ)) (by exact_mod_cast h1) ?_
      rw [le_div_iff₀ hd']
      exact_mod_cast Nat.div_mul_le_self n d
    have h5 : (m : ℝ) ≤ ((2 ^ (f + excess f (n / d)) : ℕ) : ℝ) := by exact_mod_cast h2
    rw [abs_sub_comm, abs_sub_comm _ (n / d : ℝ), abs_of_nonneg (sub_nonneg.2 h4)] at h3
    rw [abs_sub_comm, abs_sub_comm (m : ℝ), abs_of_nonneg (a := (n / d : ℝ) - m) (by linarith)]
    linarith

/-- The same for signed numbers. -/
theorem rndInt_nearest (f : ℕ) (n : ℤ) (d : ℕ) (m : ℤ) (hd : 0 < d) (hm : rndInt f m 1 = m) :
    |(rndInt f n d : ℝ) - n / d| ≤ |(m : ℝ) - n / d| := by
  have hd' : (0 : ℝ) < d := by exact_mod_cast hd
  have pos : ∀ (n m : ℤ), 0 ≤ n → rndInt f m 1 = m → |(rndInt f n d : ℝ) - n / d| ≤ |(m : ℝ) - n / d| := by
    intro n m hn hm
    obtain ⟨n, rfl⟩ := Int.eq_ofNat_of_zero_le hn
    have e1 : rndInt f (n : ℤ) d = (rndNat f n d : ℤ) := by
      unfold rndInt
      rw [if_neg (by omega), Int.natAbs_natCast]
    rw [e1]
    push_cast
    rcases lt_or_ge m 0 with h | h
    · have h0 := rndNat_nearest f n d 0 hd (rndNat_zero f 1)
      refine h0.trans ?_
      have hq : (0 : ℝ) ≤ n / d := by positivity
      have hm' : (m : ℝ) < 0 := by exact_mod_cast h
      rw [abs_of_nonpos (a := ((0 : ℕ) : ℝ) - n / d) (by simpa using hq), abs_of_nonpos (by linarith)]
      push_cast
      linarith
    · obtain ⟨m, rfl⟩ := Int.eq_ofNat_of_zero_le h
      have e2 : rndInt f (m : ℤ) 1 = (rndNat f m 1 : ℤ) := by
        unfold rndInt
        rw [if_neg (by omega), Int.natAbs_natCast]
      rw [e2] at hm
      exact_mod_cast rndNat_nearest f n d m hd (by exact_mod_cast hm)
  rcases le_total 0 n with h | h
  · exact pos n m h hm
  · have := pos (-n) (-m) (by omega) (by rw [rndInt_neg, hm])
    rw [rndInt_neg] at this
    push_cast at this
    rw [show (-(rndInt f n d : ℝ)) - -n / d = -(rndInt f n d - n / d) by ring, abs_neg,
      show (-(m : ℝ)) - -n / d = -(m - n / d) by ring, abs_neg] at this
    exact this

namespace Ieee
variable {f e E : ℕ}

/-- The extended real number that a float other than NaN stands for. -/
noncomputable def ext : Ieee f e E → EReal
  | num m _ => ((m / 2 ^ e : ℝ) : EReal)
  | inf true => ⊥
  | inf false => ⊤
  | nan => 0

/-- A result `n / d` units that does not overflow is nearest to the exact value among all floats. -/
theorem round_nearest {n : ℤ} {d : ℕ} (hd : 0 < d) (h : (round n d hd : Ieee f e E).isFinite = true) (y : Ieee f e E) (hy : y.isFinite = true) :
    |(round n d hd : Ieee f e E).val - n / d / 2 ^ e| ≤ |y.val - n / d / 2 ^ e| := by
  obtain ⟨m, hm, rfl⟩ := eq_num hy
  rw [val_round h]
  have hk := rndInt_nearest f n d m hd hm.1
  show |(rndInt f n d : ℝ) / 2 ^ e - n / d / 2 ^ e| ≤ |(m : ℝ) / 2 ^ e - n / d / 2 ^ e|
  rw [← sub_div, ← sub_div, abs_div, abs_div]
  exact div_le_div_of_nonneg_right hk (abs_nonneg _)

theorem lt_ext (x y : Ieee f e E) (hx : x ≠ nan) (hy : y ≠ nan) : x < y ↔ x.ext < y.ext := by
  have hp : (0 : ℝ) < 2 ^ e := by positivity
  rw [show x < y ↔ lt x y = true from Iff.rfl]
  cases x with
  | nan => exact absurd rfl hx
  | inf s =>
    cases y with
    | nan => exact absurd rfl hy
    | inf t => cases s <;> cases t <;> simp [ext, lt]
    | num b hb => cases s <;> simp [ext, lt, EReal.bot_lt_coe]
  | num a ha =>
    cases y with
    | nan => exact absurd rfl hy
    | inf t => cases t <;> simp [ext, lt, EReal.coe_lt_top]
    | num b hb =>
      show decide (a < b) = true ↔ ((a / 2 ^ e : ℝ) : EReal) < ((b / 2 ^ e : ℝ) : EReal)
      rw [EReal.coe_lt_coe_iff, div_lt_div_iff_of_pos_right hp, decide_eq_true_eq]
      exact_mod_cast Iff.rfl

theorem beq_ext (x y : Ieee f e E) (hx : x ≠ nan) (hy : y ≠ nan) : (x == y) = true ↔ x.ext = y.ext := by
  have hp : (2 : ℝ) ^ e ≠ 0 := by positivity
  rw [show (x == y) = beq x y from rfl]
  cases x with
  | nan => exact absurd rfl hx
  | inf s =>
    cases y with
    | nan => exact absurd rfl hy
    | inf t => cases s <;> cases t <;> simp [ext, beq]
    | num b hb => cases s <;> simp [ext, beq]
  | num a ha =>
    cases y with
    | nan => exact absurd rfl hy
    | inf t => cases t <;> simp [ext, beq]
    | num b hb =>
      show decide (a = b) = true ↔ ((a / 2 ^ e : ℝ) : EReal) = ((b / 2 ^ e : ℝ) : EReal)
      rw [EReal.coe_eq_coe_iff, div_left_inj' hp, decide_eq_true_eq]
      exact_mod_cast Iff.rfl

theorem neg_ext (x : Ieee f e E) : (-x).ext = -x.ext := by
  rw [show -x = neg x from rfl]
  cases x with
  | nan => simp [neg, ext]
  | inf s => cases s <;> simp [neg, ext]
  | num a ha =>
    show (((-a : ℤ) / 2 ^ e : ℝ) : EReal) = -((a / 2 ^ e : ℝ) : EReal)
    rw [Int.cast_neg, neg_div, EReal.coe_neg]

/-- Sums with an infinity that are not NaN. -/
theorem add_ext (x y : Ieee f e E) (h : x.isFinite = false ∨ y.isFinite = false) (hn : x + y ≠ nan) : (x + y).ext = x.ext + y.ext := by
  rw [show x + y = add x y from rfl] at hn ⊢
  cases x with
  | nan => cases y <;> exact absurd rfl hn
  | inf s =>
    cases y with
    | nan => exact absurd rfl hn
    | inf t => cases s <;> cases t <;> first | exact absurd rfl hn | simp [add, ext]
    | num b hb => cases s <;> simp [add, ext]
  | num a ha =>
    cases y with
    | nan => exact absurd rfl hn
    | inf t => cases t <;> simp [add, ext]
    | num b hb => simp [isFinite] at h

/-- Products with an infinity that are not NaN. -/
theorem mul_ext (x y : Ieee f e E) (h : x.isFinite = false ∨ y.isFinite = false) (hn : x * y ≠ nan) : (x * y).ext = x.ext * y.ext := by
  have hp : (0 : ℝ) < 2 ^ e := by positivity
  have key : ∀ (s : Bool) (b : ℤ) (hb : Rep f e E b), b ≠ 0 →
      (inf (s != decide (b < 0)) : Ieee f e E).ext = (inf s : Ieee f e E).ext * (num b hb : Ieee f e E).ext := by
    intro s b hb h0
    rcases lt_or_gt_of_ne h0 with h1 | h1
    · have hb' : (b : ℝ) / 2 ^ e < 0 := div_neg_of_neg_of_pos (by exact_mod_cast h1) hp
      cases s
      · simp [ext, h1, EReal.top_mul_coe_of_neg hb']
      · simp [ext, h1, EReal.bot_mul_coe_of_neg hb']
    · have hb' : 0 < (b : ℝ) / 2 ^ e := div_pos (by exact_mod_cast h1) hp
      have h2 : ¬ b < 0 := by omega
      cases s
      · simp [ext, h2, EReal.top_mul_coe_of_pos hb']
      · simp [ext, h2, EReal.bot_mul_coe_of_pos hb']
  rw [show x * y = mul x y from rfl] at hn ⊢
  cases x with
  | nan => cases y <;> exact absurd rfl hn
  | inf s =>
    cases y with
    | nan => exact absurd rfl hn
    | inf t => cases s <;> cases t <;> simp [mul, ext]
    | num b hb =>
      by_cases h0 : b = 0
      · simp [mul, h0] at hn
      · rw [mul, if_neg h0]
        exact key s b hb h0
  | num a ha =>
    cases y with
    | nan => exact absurd rfl hn
    | inf t =>
      by_cases h0 : a = 0
      · simp [mul, h0] at hn
      · rw [mul, if_neg h0, EReal.mul_comm, bne_comm]
        exact key t a ha h0
    | num b hb => simp [isFinite] at h

end Ieee
end PyEMD
