import Verif.Lemmas.IeeePoints

/-!
# Rounding is monotone
-/

set_option linter.unusedSectionVars false

namespace PyEMD

theorem rndNat_one (f n : ℕ) : rndNat f n 1 = roundDiv n (2 ^ excess f n) * 2 ^ excess f n := by
  rw [rndNat, Nat.div_one, one_mul]

/-- A number that rounding does not change is a multiple of its last place. -/
theorem dvd_of_rep {f y : ℕ} (hy : rndNat f y 1 = y) : 2 ^ excess f y ∣ y := by
  rw [rndNat_one] at hy
  exact ⟨_, by rw [mul_comm]; exact hy.symm⟩

theorem excess_mono {f y n : ℕ} (h : y ≤ n) : excess f y ≤ excess f n := by
  unfold excess
  have : Nat.log2 y ≤ Nat.log2 n := by
    rw [Nat.log2_eq_log_two, Nat.log2_eq_log_two]
    exact Nat.log_mono_right h
  omega

theorem dvd_or_lt {f y s : ℕ} (hy : rndNat f y 1 = y) (hs : 0 < s) : 2 ^ s ∣ y ∨ y < 2 ^ (f + s) := by
  by_cases h : s ≤ excess f y
  · exact Or.inl ((pow_dvd_pow 2 h).trans (dvd_of_rep hy))
  · right
    by_cases h0 : y = 0
    · rw [h0]; positivity
    · refine (Nat.log2_lt h0).1 ?_
      unfold excess at h
      omega

theorem le_rndNat {f y n : ℕ} (hy : rndNat f y 1 = y) (h : y ≤ n) : y ≤ rndNat f n 1 := by
  rw [rndNat_one]
  by_cases h0 : excess f n = 0
  · rw [h0, pow_zero, mul_one, roundDiv_of_dvd _ _ Nat.one_pos (one_dvd n), Nat.div_one]
    exact h
  · have hn : n ≠ 0 := by
      rintro rfl
      exact h0 (by simp [excess])
    have hle : n / 2 ^ excess f n * 2 ^ excess f n ≤ roundDiv n (2 ^ excess f n) * 2 ^ excess f n := Nat.mul_le_mul_right _ (le_roundDiv _ _)
    refine le_trans ?_ hle
    rcases dvd_or_lt hy (Nat.pos_of_ne_zero h0) with ⟨c, rfl⟩ | hlt
    · rw [mul_comm]
      refine Nat.mul_le_mul_right _ ?_
      rw [Nat.le_div_iff_mul_le (by positivity), mul_comm]
      exact h
    · refine hlt.le.trans ?_
      rw [pow_add]
      refine Nat.mul_le_mul_right _ ?_
      rw [Nat.le_div_iff_mul_le (by positivity), ← pow_add]
      have : f + excess f n = Nat.log2 n := by unfold excess at h0 ⊢; omega
      rw [this]
      exact Nat.log2_self_le hn

theorem roundDiv_le_of_le {n d c : ℕ} (hd : 0 < d) (h : n ≤ c * d) : roundDiv n d ≤ c := by
  have h1 : n / d ≤ c := by
    have := Nat.div_le_div_right (c := d) h
    rwa [Nat.mul_div_cancel _ hd] at this
  rcases Nat.lt_or_ge (n / d) c with h2 | h2
  · exact (roundDiv_le n d).trans h2
  · have h3 : n / d = c := le_antisymm h1 h2
    have h4 : n = c * d := by
      refine le_antisymm h ?_
      rw [← h3]
      exact Nat.div_mul_le_self n d
    rw [roundDiv_of_dvd _ _ hd ⟨c, by rw [h4, mul_comm]⟩, h3]

theorem rndNat_le {f y n : ℕ} (hy : rndNat f y 1 = y) (h : n ≤ y) : rndNat f n 1 ≤ y := by
  rw [rndNat_one]
  obtain ⟨c, hc⟩ := (pow_dvd_pow 2 (excess_mono h)).trans (dvd_of_rep hy)
  rw [mul_comm] at hc
  rw [hc] at h ⊢
  exact Nat.mul_le_mul_right _ (roundDiv_le_of_le (by positivity) h)

theorem rndInt_nat (f n : ℕ) (d : ℕ) : rndInt f (n : ℤ) d = rndNat f n d := by
  unfold rndInt
  rw [if_neg (by omega), Int.natAbs_natCast]

theorem rndInt_negNat (f n : ℕ) (d : ℕ) : rndInt f (-(n : ℤ)) d = -(rndNat f n d : ℤ) := by
  rw [rndInt_neg, rndInt_nat]

/-- A representable number below `x` is below the rounded `x`. -/
theorem le_rndInt {f : ℕ} {y x : ℤ} (hy : rndInt f y 1 = y) (h : y ≤ x) : y ≤ rndInt f x 1 := by
  obtain ⟨b, rfl | rfl⟩ := Int.eq_nat_or_neg x
  · rw [rndInt_nat]
    obtain ⟨a, rfl | rfl⟩ := Int.eq_nat_or_neg y
    · rw [rndInt_nat] at hy
      exact_mod_cast le_rndNat (by exact_mod_cast hy) (by omega)
    · omega
  · rw [rndInt_negNat]
    obtain ⟨a, rfl | rfl⟩ := Int.eq_nat_or_neg y
    · have h0 : b = 0 := by omega
      subst h0
      rw [rndNat_zero]
      omega
    · rw [rndInt_negNat] at hy
      have := rndNat_le (f := f) (y := a) (n := b) (by omega) (by omega)
      omega

/-- A representable number above `x` is above the rounded `x`. -/
theorem rndInt_le {f : ℕ} {y x : ℤ} (hy : rndInt f y 1 = y) (h : x ≤ y) : rndInt f x 1 ≤ y := by
  have := le_rndInt (f := f) (y := -y) (x := -x) (by rw [rndInt_neg, hy]) (by omega)
  rw [rndInt_neg] at this
  omega

namespace Ieee
variable {f e E : ℕ}

theorem IsInt.add (hE : f + 2 ≤ E) {x y : Ieee f e E} {j k : ℤ} (hx : IsInt x j) (hy : IsInt y k)
    (h : (j + k).natAbs ≤ 2 ^ (f + 1)) : IsInt (x + y) (j + k) := by
  obtain ⟨h1, rfl⟩ := hx
  obtain ⟨h2, rfl⟩ := hy
  rw [add_num]
  refine isInt_round hE _ _ _ _ ?_ h
  push_cast
  ring

/-- A sum that does not overflow. -/
theorem round_bounds {n : ℤ} {lo hi : ℤ} (hlo : Rep f e E lo) (hhi : Rep f e E hi) (h1 : lo ≤ n) (h2 : n ≤ hi) :
    ∃ m h, (round n 1 Nat.one_pos : Ieee f e E) = num m h ∧ lo ≤ m ∧ m ≤ hi := by
  have g1 := le_rndInt hlo.1 h1
  have g2 := rndInt_le hhi.1 h2
  have hb : (rndInt f n 1).natAbs < 2 ^ (E + e) := by
    have := hlo.2
    have := hhi.2
    omega
  refine ⟨rndInt f n 1, ⟨rndInt_idem f n 1 Nat.one_pos, hb⟩, ?_, g1, g2⟩
  unfold round
  rw [dif_pos hb]

end Ieee
end PyEMD
