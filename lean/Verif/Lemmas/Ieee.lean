import Verif.Spec.Ieee
import Verif.Spec.Float
import Verif.Spec.Missing
import Mathlib.Tactic.Linarith
import Mathlib.Tactic.FieldSimp
import Mathlib.Tactic.NormNum

/-!
# The IEEE 754 formats obey the rounding laws
-/

namespace PyEMD

theorem roundDiv_err (n d : ℕ) (hd : 0 < d) : |(roundDiv n d : ℝ) - n / d| ≤ 1 / 2 := by
  have hd' : (0 : ℝ) < d := by exact_mod_cast hd
  have hn : (n : ℝ) = d * (n / d : ℕ) + (n % d : ℕ) := by exact_mod_cast (Nat.div_add_mod n d).symm
  have hnd : (n : ℝ) / d = (n / d : ℕ) + ((n % d : ℕ) : ℝ) / d := by
    rw [div_eq_iff hd'.ne', add_mul, div_mul_cancel₀ _ hd'.ne', mul_comm]
    exact hn
  have hr : 0 ≤ ((n % d : ℕ) : ℝ) / d := by positivity
  have hr1 : ((n % d : ℕ) : ℝ) / d < 1 := by
    rw [div_lt_one hd']
    exact_mod_cast Nat.mod_lt n hd
  rw [hnd, roundDiv]
  split_ifs with h1 h2
  · have : ((n % d : ℕ) : ℝ) / d ≤ 1 / 2 := by
      rw [div_le_div_iff₀ hd' two_pos]
      have : (2 : ℝ) * (n % d : ℕ) < d := by exact_mod_cast h1
      linarith
    rw [abs_le]; constructor <;> linarith
  · have : (1 : ℝ) / 2 ≤ ((n % d : ℕ) : ℝ) / d := by
      rw [div_le_div_iff₀ two_pos hd']
      have : (d : ℝ) < 2 * (n % d : ℕ) := by exact_mod_cast h2
      linarith
    push_cast
    rw [abs_le]; constructor <;> linarith
  · have h3 : ((n % d : ℕ) : ℝ) / d = 1 / 2 := by
      rw [div_eq_div_iff hd'.ne' two_ne_zero]
      have : 2 * (n % d) = d := by omega
      have : (2 : ℝ) * (n % d : ℕ) = d := by exact_mod_cast this
      linarith
    rw [h3]
    have h4 : (n / d) % 2 = 0 ∨ (n / d) % 2 = 1 := by omega
    rcases h4 with h4 | h4 <;> rw [h4] <;> push_cast <;> rw [abs_le] <;> constructor <;> linarith

/-- Rounding to an integer of `f + 1` bits: the error is at most a half when the bits suffice for the integer part, and small relative to the number
otherwise. -/
theorem rndNat_err (f n d : ℕ) (hd : 0 < d) :
    |(rndNat f n d : ℝ) - n / d| ≤ 1 / 2 ∧ excess f (n / d) = 0 ∨ |(rndNat f n d : ℝ) - n / d| ≤ (n / d : ℝ) / 2 ^ (f + 1) := by
  have hd' : (0 : ℝ) < d := by exact_mod_cast hd
  have h := roundDiv_err n (d * 2 ^ excess f (n / d)) (by positivity)
  have h2 : |(rndNat f n d : ℝ) - n / d| ≤ 2 ^ excess f (n / d) / 2 := by
    have h3 : (rndNat f n d : ℝ) - n / d =
        ((roundDiv n (d * 2 ^ excess f (n / d)) : ℝ) - n / ((d * 2 ^ excess f (n / d) : ℕ) : ℝ)) * 2 ^ excess f (n / d) := by
      rw [rndNat]
      push_cast
      rw [sub_mul]
      congr 1
      field_simp
    rw [h3, abs_mul, abs_of_pos (by positivity : (0 : ℝ) < 2 ^ excess f (n / d))]
    calc _ ≤ 1 / 2 * (2 : ℝ) ^ excess f (n / d) := mul_le_mul_of_nonneg_right h (by positivity)
      _ = _ := by ring
  by_cases h0 : excess f (n / d) = 0
  · left
    rw [h0, pow_zero] at h2
    exact ⟨h2, h0⟩
  · right
    refine h2.trans ?_
    have hq : n / d ≠ 0 := by
      intro hq
      rw [hq] at h0
      simp [excess] at h0
    have h5 : 2 ^ (f + excess f (n / d)) ≤ n / d := by
      have : f + excess f (n / d) = Nat.log2 (n / d) := by unfold excess at h0 ⊢; omega
      rw [this]
      exact Nat.log2_self_le hq
    have h6 : (2 : ℝ) ^ (f + excess f (n / d)) ≤ n / d := by
      rw [le_div_iff₀ hd']
      have : 2 ^ (f + excess f (n / d)) * d ≤ n := (Nat.le_div_iff_mul_le hd).1 h5
      exact_mod_cast this
    rw [div_le_div_iff₀ two_pos (by positivity)]
    calc (2 : ℝ) ^ excess f (n / d) * 2 ^ (f + 1) = 2 ^ (f + excess f (n / d)) * 2 := by ring
      _ ≤ _ := by linarith

theorem rndNat_err_div (f n d : ℕ) (hd : 0 < d) : |(rndNat f n d : ℝ) - n / d| ≤ (n / d : ℝ) / 2 ^ (f + 1) + 1 / 2 := by
  have h0 : (0 : ℝ) ≤ (n / d : ℝ) / 2 ^ (f + 1) := by positivity
  rcases rndNat_err f n d hd with ⟨h, _⟩ | h <;> linarith

theorem rndNat_err_int (f n : ℕ) : |(rndNat f n 1 : ℝ) - n| ≤ (n : ℝ) / 2 ^ (f + 1) := by
  rcases rndNat_err f n 1 one_pos with ⟨_, h⟩ | h
  · have : rndNat f n 1 = n := by
      rw [rndNat, h, pow_zero, mul_one, mul_one, roundDiv_of_dvd _ _ one_pos (one_dvd n), Nat.div_one]
    rw [this, sub_self, abs_zero]
    positivity
  · simpa using h

theorem rndInt_err_div (f : ℕ) (n : ℤ) (d : ℕ) (hd : 0 < d) :
    |(rndInt f n d : ℝ) - n / d| ≤ |(n / d : ℝ)| / 2 ^ (f + 1) + 1 / 2 := by
  have h := rndNat_err_div f n.natAbs d hd
  have hd' : (0 : ℝ) < d := by exact_mod_cast hd
  have ha : ((n.natAbs : ℕ) : ℝ) = |(n : ℝ)| := by
    rw [← Int.cast_abs, ← Int.natCast_natAbs, Int.cast_natCast]
  rw [ha] at h
  rw [abs_div, abs_of_pos hd']
  unfold rndInt
  split_ifs with hn
  · have hn' : (n : ℝ) < 0 := by exact_mod_cast hn
    rw [abs_of_neg hn'] at h ⊢
    rw [abs_sub_comm]
    push_cast
    calc _ = |(rndNat f n.natAbs d : ℝ) - -(n : ℝ) / d| := by congr 1; ring
      _ ≤ _ := h
  · have hn' : (0 : ℝ) ≤ n := by exact_mod_cast not_lt.1 hn
    rw [abs_of_nonneg hn'] at h ⊢
    exact_mod_cast h

theorem rndInt_err_int (f : ℕ) (n : ℤ) : |(rndInt f n 1 : ℝ) - n| ≤ |(n : ℝ)| / 2 ^ (f + 1) := by
  have h := rndNat_err_int f n.natAbs
  have ha : ((n.natAbs : ℕ) : ℝ) = |(n : ℝ)| := by
    rw [← Int.cast_abs, ← Int.natCast_natAbs, Int.cast_natCast]
  rw [ha] at h
  unfold rndInt
  split_ifs with hn
  · have hn' : (n : ℝ) < 0 := by exact_mod_cast hn
    rw [abs_of_neg hn'] at h ⊢
    rw [abs_sub_comm]
    push_cast
    calc _ = |(rndNat f n.natAbs 1 : ℝ) - -(n : ℝ)| := by congr 1; ring
      _ ≤ _ := h
  · have hn' : (0 : ℝ) ≤ n := by exact_mod_cast not_lt.1 hn
    rw [abs_of_nonneg hn'] at h ⊢
    exact_mod_cast h

namespace Ieee
variable {f e E : ℕ}

theorem round_ok {n : ℤ} {d : ℕ} {hd : 0 < d} (h : (round n d hd : Ieee f e E).isFinite = true) :
    ∃ h', (round n d hd : Ieee f e E) = num (rndInt f n d) h' := by
  unfold round at h ⊢
  by_cases h1 : (rndInt f n d).natAbs < 2 ^ (E + e)
  · exact ⟨⟨rndInt_idem f n d hd, h1⟩, dif_pos h1⟩
  · rw [dif_neg h1] at h
    exact (nomatch h)

theorem rndInt_zero (f d : ℕ) : rndInt f 0 d = 0 := by simp [rndInt, rndNat_zero]

theorem rep_zero : Rep f e E 0 := ⟨rndInt_zero f 1, by simp⟩

theorem lit_zero : (lit 0 : Ieee f e E) = num 0 rep_zero := by
  show round ((0 : ℚ).num * 2 ^ e) (0 : ℚ).den _ = _
  unfold round
  rw [dif_pos (by simp [rndInt_zero])]
  congr 1
  simp [rndInt_zero]

theorem add_num (a b : ℤ) (ha : Rep f e E a) (hb : Rep f e E b) :
    (num a ha + num b hb : Ieee f e E) = round (a + b) 1 Nat.one_pos := rfl

theorem mul_num (a b : ℤ) (ha : Rep f e E a) (hb : Rep f e E b) :
    (num a ha * num b hb : Ieee f e E) = round (a * b) (2 ^ e) (Nat.two_pow_pos e) := rfl

theorem lt_num (a b : ℤ) (ha : Rep f e E a) (hb : Rep f e E b) : (num a ha : Ieee f e E) < num b hb ↔ a < b := by
  show decide (a < b) = true ↔ _
  simp

theorem beq_num (a b : ℤ) (ha : Rep f e E a) (hb : Rep f e E b) : ((num a ha : Ieee f e E) == num b hb) = decide (a = b) := rfl

theorem le_num (a b : ℤ) (ha : Rep f e E a) (hb : Rep f e E b) : (num a ha : Ieee f e E) ≤ num b hb ↔ a ≤ b := by
  show (decide (a < b) || decide (a = b)) = true ↔ _
  simp [le_iff_lt_or_eq]

theorem add_finite {x y : Ieee f e E} (h : (x + y).isFinite = true) : x.isFinite = true ∧ y.isFinite = true := by
  change (add x y).isFinite = true at h
  cases x <;> cases y <;> first
    | exact ⟨rfl, rfl⟩
    | (exfalso; revert h; simp only [add]; split <;> exact Bool.false_ne_true)
    | (exfalso; exact Bool.false_ne_true h)

theorem mul_finite {x y : Ieee f e E} (h : (x * y).isFinite = true) : x.isFinite = true ∧ y.isFinite = true := by
  change (mul x y).isFinite = true at h
  cases x <;> cases y <;> first
    | exact ⟨rfl, rfl⟩
    | (exfalso; revert h; simp only [mul]; split <;> exact Bool.false_ne_true)
    | (exfalso; exact Bool.false_ne_true h)

theorem val_round {n : ℤ} {d : ℕ} {hd : 0 < d} (h : (round n d hd : Ieee f e E).isFinite = true) :
    (round n d hd : Ieee f e E).val = (rndInt f n d : ℝ) / 2 ^ e := by
  obtain ⟨h', h⟩ := round_ok h
  rw [h]
  rfl

theorem scale_err {x y t c : ℝ} (P : ℝ) (hP : 0 < P) (hxy : |x - y| ≤ |y| / t + c) : |x / P - y / P| ≤ 1 / t * |y / P| + c / P := by
  rw [← sub_div, abs_div, abs_div, abs_of_pos hP]
  calc |x - y| / P ≤ (|y| / t + c) / P := by gcongr
    _ = _ := by ring

theorem add_err (x y : Ieee f e E) (h : (x + y).isFinite = true) :
    |(x + y).val - (x.val + y.val)| ≤ 1 / 2 ^ (f + 1) * |x.val + y.val| := by
  obtain ⟨hx, hy⟩ := add_finite h
  cases x with
  | num a ha =>
    cases y with
    | num b hb =>
      rw [add_num] at h ⊢
      rw [val_round h]
      have := scale_err (c := 0) ((2 : ℝ) ^ e) (by positivity) (by rw [add_zero]; exact rndInt_err_int f (a + b))
      rw [zero_div, add_zero] at this
      have h2 : (num a ha : Ieee f e E).val + (num b hb : Ieee f e E).val = ((a + b : ℤ) : ℝ) / 2 ^ e := by
        simp only [val]
        push_cast
        ring
      rw [h2]
      exact this
    | _ => exact (nomatch hy)
  | _ => exact (nomatch hx)

theorem neg_num (a : ℤ) (ha : Rep f e E a) : ∃ h, (-(num a ha) : Ieee f e E) = num (-a) h := ⟨_, rfl⟩

theorem val_neg (x : Ieee f e E) : (-x).val = -x.val := by
  cases x with
  | num m h =>
    obtain ⟨h', e1⟩ := neg_num m h
    rw [e1]
    simp only [val]
    push_cast
    ring
  | _ => exact (neg_zero).symm

theorem neg_finite (x : Ieee f e E) : (-x).isFinite = x.isFinite := by cases x <;> rfl

theorem mul_err (x y : Ieee f e E) (h : (x * y).isFinite = true) :
    |(x * y).val - x.val * y.val| ≤ 1 / 2 ^ (f + 1) * |x.val * y.val| + 1 / 2 ^ (e + 1) := by
  obtain ⟨hx, hy⟩ := mul_finite h
  cases x with
  | num a ha =>
    cases y with
    | num b hb =>
      rw [mul_num] at h ⊢
      rw [val_round h]
      have := scale_err ((2 : ℝ) ^ e) (by positivity) (rndInt_err_div f (a * b) (2 ^ e) (Nat.two_pow_pos e))
      have h2 : (num a ha : Ieee f e E).val * (num b hb : Ieee f e E).val = ((a * b : ℤ) : ℝ) / ((2 ^ e : ℕ) : ℝ) / 2 ^ e := by
        simp only [val]
        push_cast
        field_simp
      have h3 : (1 : ℝ) / 2 ^ (e + 1) = 1 / 2 / 2 ^ e := by rw [pow_succ]; field_simp
      rw [h2, h3]
      exact this
    | _ => exact (nomatch hy)
  | _ => exact (nomatch hx)

theorem div_finite {x y : Ieee f e E} (h : (x / y).isFinite = true) (hy : y.isFinite = true) : x.isFinite = true ∧ y.val ≠ 0 := by
  change (div x y).isFinite = true at h
  cases y with
  | num b hb =>
    cases x with
    | num a ha =>
      refine ⟨rfl, ?_⟩
      by_cases h0 : b = 0
      · exfalso
        simp only [div, dif_pos h0] at h
        split at h <;> exact (nomatch h)
      · simp only [val]
        have : (b : ℝ) ≠ 0 := by exact_mod_cast h0
        positivity
    | nan => exact (nomatch h)
    | inf s => exact (nomatch h)
  | _ => exact (nomatch hy)

theorem div_err (x y : Ieee f e E) (h : (x / y).isFinite = true) (hy : y.isFinite = true) :
    |(x / y).val - x.val / y.val| ≤ 1 / 2 ^ (f + 1) * |x.val / y.val| + 1 / 2 ^ (e + 1) := by
  obtain ⟨hx, hy0⟩ := div_finite h hy
  cases x with
  | num a ha =>
    cases y with
    | num b hb =>
      have hb0 : b ≠ 0 := by
        rintro rfl
        exact hy0 (by simp [val])
      have hb0' : (b : ℝ) ≠ 0 := by exact_mod_cast hb0
      have hdiv : (num a ha / num b hb : Ieee f e E) =
          round (if b < 0 then -(a * 2 ^ e) else a * 2 ^ e) b.natAbs (Int.natAbs_pos.2 hb0) := by
        show div _ _ = _
        simp only [div, dif_neg hb0]
      rw [hdiv] at h ⊢
      rw [val_round h]
      have := scale_err ((2 : ℝ) ^ e) (by positivity) (rndInt_err_div f (if b < 0 then -(a * 2 ^ e) else a * 2 ^ e) b.natAbs (Int.natAbs_pos.2 hb0))
      have h2 : (num a ha : Ieee f e E).val / (num b hb : Ieee f e E).val =
          ((if b < 0 then -(a * 2 ^ e) else a * 2 ^ e : ℤ) : ℝ) / ((b.natAbs : ℕ) : ℝ) / 2 ^ e := by
        have hab : ((b.natAbs : ℕ) : ℝ) = |(b : ℝ)| := by
          rw [← Int.cast_abs, ← Int.natCast_natAbs, Int.cast_natCast]
        rw [hab]
        simp only [val]
        split_ifs with hn
        · have : (b : ℝ) < 0 := by exact_mod_cast hn
          rw [abs_of_neg this]
          push_cast
          field_simp
        · have : (0 : ℝ) ≤ b := by exact_mod_cast not_lt.1 hn
          rw [abs_of_nonneg this]
          push_cast
          field_simp
      have h3 : (1 : ℝ) / 2 ^ (e + 1) = 1 / 2 / 2 ^ e := by rw [pow_succ]; field_simp
      rw [h2, h3]
      exact this
    | _ => exact (nomatch hy)
  | _ => exact (nomatch hx)

theorem lit_near (q : ℚ) (hq : |q| ≤ 1) (he : 1 ≤ e) (hE : 1 ≤ E) :
    (lit q : Ieee f e E).isFinite = true ∧ |(lit q : Ieee f e E).val - q| ≤ 1 / 2 ^ (f + 1) * |(q : ℝ)| + 1 / 2 ^ (e + 1) := by
  have hqv : ((q.num * 2 ^ e : ℤ) : ℝ) / (q.den : ℝ) = (q : ℝ) * 2 ^ e := by
    rw [Rat.cast_def]
    push_cast
    ring
  have herr := rndInt_err_div f (q.num * 2 ^ e) q.den q.den_pos
  rw [hqv] at herr
  have hq' : |(q : ℝ)| ≤ 1 := by exact_mod_cast hq
  have hfin : (lit q : Ieee f e E).isFinite = true := by
    show (round (q.num * 2 ^ e) q.den _ : Ieee f e E).isFinite = true
    unfold round
    rw [dif_pos]
    · rfl
    · have hP : (2 : ℝ) ≤ 2 ^ e := by
        calc (2 : ℝ) = 2 ^ 1 := by norm_num
          _ ≤ 2 ^ e := pow_le_pow_right₀ (by norm_num) he
      have h1 : |(q : ℝ) * 2 ^ e| ≤ 2 ^ e := by
        rw [abs_mul, abs_of_pos (by positivity : (0 : ℝ) < 2 ^ e)]
        calc _ ≤ 1 * (2 : ℝ) ^ e := mul_le_mul_of_nonneg_right hq' (by positivity)
          _ = _ := one_mul _
      have h2 : (2 : ℝ) ≤ 2 ^ (f + 1) := by
        calc (2 : ℝ) = 2 ^ 1 := by norm_num
          _ ≤ 2 ^ (f + 1) := pow_le_pow_right₀ (by norm_num) (by omega)
      have h3 : |(q : ℝ) * 2 ^ e| / 2 ^ (f + 1) ≤ 2 ^ e / 2 :=
        div_le_div₀ (by positivity) h1 (by norm_num) h2
      have h4 := abs_sub_abs_le_abs_sub (rndInt f (q.num * 2 ^ e) q.den : ℝ) ((q : ℝ) * 2 ^ e)
      have h5 : |(rndInt f (q.num * 2 ^ e) q.den : ℝ)| ≤ 2 ^ e + 2 ^ e / 2 + 1 / 2 := by linarith
      have h6 : |(rndInt f (q.num * 2 ^ e) q.den : ℝ)| < 2 ^ (E + e) := by
        calc _ ≤ (2 : ℝ) ^ e + 2 ^ e / 2 + 1 / 2 := h5
          _ < 2 ^ e * 2 := by linarith
          _ = 2 ^ (1 + e) := by rw [pow_add]; ring
          _ ≤ _ := pow_le_pow_right₀ (by norm_num) (by omega)
      have h7 : ((rndInt f (q.num * 2 ^ e) q.den).natAbs : ℝ) < 2 ^ (E + e) := by
        rw [Nat.cast_natAbs, Int.cast_abs]
        exact h6
      exact_mod_cast h7
  refine ⟨hfin, ?_⟩
  have hv : (lit q : Ieee f e E).val = (rndInt f (q.num * 2 ^ e) q.den : ℝ) / 2 ^ e := val_round hfin
  rw [hv]
  have := scale_err ((2 : ℝ) ^ e) (by positivity) herr
  have h3 : (1 : ℝ) / 2 ^ (e + 1) = 1 / 2 / 2 ^ e := by rw [pow_succ]; field_simp
  rw [mul_div_assoc, div_self (by positivity), mul_one] at this
  rw [h3]
  exact this

theorem eq_num {x : Ieee f e E} (h : x.isFinite = true) : ∃ m hm, x = num m hm := by
  cases x with
  | num m hm => exact ⟨m, hm, rfl⟩
  | _ => exact (nomatch h)

/-- Every IEEE 754 format obeys the standard model of floating point arithmetic, with relative error `2⁻ᶠ⁻¹` and absolute error half a unit. -/
noncomputable def arith (he : 1 ≤ e) (hE : 1 ≤ E) : FloatArith (Ieee f e E) where
  finite x := x.isFinite = true
  val := val
  u := 1 / 2 ^ (f + 1)
  eta := 1 / 2 ^ (e + 1)
  u_nonneg := by positivity
  eta_nonneg := by positivity
  zero := by
    rw [lit_zero]
    exact ⟨rfl, by simp [val]⟩
  lit_near q hq := lit_near q hq he hE
  neg x h := ⟨by rw [neg_finite]; exact h, val_neg x⟩
  lt_iff x y hx hy := by
    obtain ⟨a, ha, rfl⟩ := eq_num hx
    obtain ⟨b, hb, rfl⟩ := eq_num hy
    rw [lt_num]
    simp only [val]
    rw [div_lt_div_iff_of_pos_right (by positivity)]
    exact Int.cast_lt.symm
  le_iff x y hx hy := by
    obtain ⟨a, ha, rfl⟩ := eq_num hx
    obtain ⟨b, hb, rfl⟩ := eq_num hy
    rw [le_num]
    simp only [val]
    rw [div_le_div_iff_of_pos_right (by positivity)]
    exact Int.cast_le.symm
  add x y h := ⟨(add_finite h).1, (add_finite h).2, add_err x y h⟩
  sub x y h := by
    have h' : (x + -y).isFinite = true := h
    have h1 := add_err x (-y) h'
    rw [val_neg, ← sub_eq_add_neg] at h1
    exact ⟨(add_finite h').1, by rw [← neg_finite]; exact (add_finite h').2, h1⟩
  mul x y h := ⟨(mul_finite h).1, (mul_finite h).2, mul_err x y h⟩
  div x y h hy := ⟨(div_finite h hy).1, (div_finite h hy).2, div_err x y h hy⟩

theorem beq_iff (x y : Ieee f e E) (hx : x.isFinite = true) (hy : y.isFinite = true) : (x == y) = true ↔ x.val = y.val := by
  obtain ⟨a, ha, rfl⟩ := eq_num hx
  obtain ⟨b, hb, rfl⟩ := eq_num hy
  rw [beq_num, decide_eq_true_iff]
  simp only [val]
  rw [div_left_inj' (by positivity)]
  exact Int.cast_inj.symm

theorem foldl_pick_nan (g : Ieee f e E → Ieee f e E → Bool) (l : List (Ieee f e E)) : l.foldl (pick g) nan = nan := by
  induction l with
  | nil => rfl
  | cons x l ih => rw [List.foldl_cons]; exact ih

theorem pick_nan (g : Ieee f e E → Ieee f e E → Bool) (x : Ieee f e E) : pick g x nan = nan := by cases x <;> rfl

theorem foldl_pick_mem (g : Ieee f e E → Ieee f e E → Bool) (l : List (Ieee f e E)) (h : nan ∈ l) (a : Ieee f e E) :
    l.foldl (pick g) a = nan := by
  induction l generalizing a with
  | nil => simp at h
  | cons x l ih =>
    rw [List.foldl_cons]
    rcases List.mem_cons.1 h with rfl | h
    · rw [pick_nan, foldl_pick_nan]
    · exact ih h _

theorem add_zero' (x : Ieee f e E) : x + num 0 rep_zero = x := by
  cases x with
  | num m h =>
    rw [add_num]
    unfold round
    have h1 : rndInt f (m + 0) 1 = m := by rw [add_zero]; exact h.1
    rw [dif_pos (by rw [h1]; exact h.2)]
    congr 1
  | _ => rfl

/-- NaN obeys the laws of a missing value. -/
theorem notANumber : NotANumber (nan : Ieee f e E) where
  add_left x := by cases x <;> rfl
  add_right x := by cases x <;> rfl
  sub_left x := by cases x <;> rfl
  sub_right x := by cases x <;> rfl
  mul_left x := by cases x <;> rfl
  mul_right x := by cases x <;> rfl
  div_left x := by cases x <;> rfl
  not_lt_left x := by cases x <;> rintro ⟨⟩
  not_lt_right x := by cases x <;> rintro ⟨⟩
  not_le_left x := by cases x <;> rintro ⟨⟩
  not_beq x := by cases x <;> rfl
  max_mem l h := by
    cases l with
    | nil => simp at h
    | cons x l =>
      show l.foldl (pick _) x = nan
      rcases List.mem_cons.1 h with rfl | h
      · exact foldl_pick_nan _ _
      · exact foldl_pick_mem _ _ h _
  min_mem l h := by
    cases l with
    | nil => simp at h
    | cons x l =>
      show l.foldl (pick _) x = nan
      rcases List.mem_cons.1 h with rfl | h
      · exact foldl_pick_nan _ _
      · exact foldl_pick_mem _ _ h _
  sub_zero x := by
    rw [lit_zero]
    show x + -(num 0 rep_zero) = x
    obtain ⟨h, e1⟩ := neg_num (f := f) (e := e) (E := E) 0 rep_zero
    rw [e1]
    exact add_zero' x

end Ieee
end PyEMD
