import Verif.Lemmas.IeeeMono
import Verif.Props.Ieee

/-!
# Parabolic detection in double precision (C128)
-/

set_option linter.unusedSectionVars false

namespace PyEMD
namespace Ieee
open EMD EMD.Spec
variable {f e E : ℕ}

/-! ## The determinant -/

/-- The determinant of `parabolVertex`, as it is computed. -/
def det {α : Type} [Add α] [Sub α] [Mul α] (Tp T0 Tn : α) : α :=
  Tp * Tn * Tn + Tp * Tp * T0 + T0 * T0 * Tn - Tp * Tp * Tn - Tp * T0 * T0 - T0 * Tn * Tn

theorem det_exact (hE : f + 2 ≤ E) (k : ℕ) (hk : 1 ≤ k) (hb : 3 * (k + 1) ^ 3 ≤ 2 ^ (f + 1)) {Tp T0 Tn : Ieee f e E}
    (h1 : IsInt Tp (k - 1)) (h2 : IsInt T0 k) (h3 : IsInt Tn (k + 1)) : IsInt (det Tp T0 Tn) (-2) := by
  obtain ⟨j, rfl⟩ : ∃ j, k = j + 1 := ⟨k - 1, by omega⟩
  have h1' : IsInt Tp (j : ℤ) := by simpa using h1
  have h2' : IsInt T0 ((j + 1 : ℕ) : ℤ) := h2
  have h3' : IsInt Tn ((j + 2 : ℕ) : ℤ) := by
    have : (((j + 1 : ℕ) : ℤ) + 1) = ((j + 2 : ℕ) : ℤ) := by push_cast; ring
    rwa [this] at h3
  have mulN : ∀ {x y : Ieee f e E} {p q : ℕ}, IsInt x p → IsInt y q → p * q ≤ 2 ^ (f + 1) → IsInt (x * y) ((p * q : ℕ) : ℤ) := by
    intro x y p q hx hy h
    have := hx.mul hE hy (by rw [← Nat.cast_mul, Int.natAbs_natCast]; exact h)
    rwa [← Nat.cast_mul] at this
  have c2 : ∀ p q : ℕ, p ≤ j + 2 → q ≤ j + 2 → p * q ≤ 2 ^ (f + 1) := by
    intro p q hp hq
    have := Nat.mul_le_mul hp hq
    nlinarith
  have c3 : ∀ p q r : ℕ, p ≤ j + 2 → q ≤ j + 2 → r ≤ j + 2 → p * q * r ≤ (j + 2) ^ 3 := by
    intro p q r hp hq hr
    calc p * q * r ≤ (j + 2) * (j + 2) * (j + 2) := Nat.mul_le_mul (Nat.mul_le_mul hp hq) hr
      _ = (j + 2) ^ 3 := by ring
  have m3 : ∀ {x y z : Ieee f e E} {p q r : ℕ}, IsInt x p → IsInt y q → IsInt z r → p ≤ j + 2 → q ≤ j + 2 → r ≤ j + 2 →
      IsInt (x * y * z) ((p * q * r : ℕ) : ℤ) := by
    intro x y z p q r hx hy hz hp hq hr
    refine mulN (mulN hx hy (c2 p q hp hq)) hz ?_
    have := c3 p q r hp hq hr
    have hb' : 3 * (j + 2) ^ 3 ≤ 2 ^ (f + 1) := hb
    omega
  have A := m3 h1' h3' h3' (by omega) le_rfl le_rfl
  have B := m3 h1' h1' h2' (by omega) (by omega) (by omega)
  have C := m3 h2' h2' h3' (by omega) (by omega) le_rfl
  have D := m3 h1' h1' h3' (by omega) (by omega) le_rfl
  have F := m3 h1' h2' h2' (by omega) (by omega) (by omega)
  have G := m3 h2' h3' h3' (by omega) le_rfl le_rfl
  have a := c3 j (j + 2) (j + 2) (by omega) le_rfl le_rfl
  have b := c3 j j (j + 1) (by omega) (by omega) (by omega)
  have c := c3 (j + 1) (j + 1) (j + 2) (by omega) (by omega) le_rfl
  have d := c3 j j (j + 2) (by omega) (by omega) le_rfl
  have ff := c3 j (j + 1) (j + 1) (by omega) (by omega) (by omega)
  have g := c3 (j + 1) (j + 2) (j + 2) (by omega) le_rfl le_rfl
  have hb' : 3 * (j + 2) ^ 3 ≤ 2 ^ (f + 1) := hb
  generalize hK : (j + 2) ^ 3 = K at *
  generalize hM : 2 ^ (f + 1) = M at *
  have s1 := A.add hE B (by rw [hM]; omega)
  have s2 := s1.add hE C (by rw [hM]; omega)
  have s3 := s2.sub hE D (by rw [hM]; omega)
  have s4 := s3.sub hE F (by rw [hM]; omega)
  have s5 := s4.sub hE G (by rw [hM]; omega)
  have : ((j * (j + 2) * (j + 2) : ℕ) : ℤ) + ((j * j * (j + 1) : ℕ) : ℤ) + (((j + 1) * (j + 1) * (j + 2) : ℕ) : ℤ) - ((j * j * (j + 2) : ℕ) : ℤ) -
      ((j * (j + 1) * (j + 1) : ℕ) : ℤ) - (((j + 1) * (j + 2) * (j + 2) : ℕ) : ℤ) = -2 := by
    push_cast
    ring
  rw [this] at s5
  exact s5

/-! ## Signs -/

/-- At least `lo` units, possibly infinite. -/
def AtLeast (lo : ℤ) (x : Ieee f e E) : Prop := x = inf false ∨ ∃ m h, x = num m h ∧ lo ≤ m

/-- At most `hi` units, possibly infinite. -/
def AtMost (hi : ℤ) (x : Ieee f e E) : Prop := x = inf true ∨ ∃ m h, x = num m h ∧ m ≤ hi

theorem round_atLeast {n lo : ℤ} (hlo : Rep f e E lo) (h : lo ≤ n) : AtLeast lo (round n 1 Nat.one_pos : Ieee f e E) := by
  have g1 := le_rndInt hlo.1 h
  unfold round
  by_cases hb : (rndInt f n 1).natAbs < 2 ^ (E + e)
  · rw [dif_pos hb]
    exact Or.inr ⟨_, _, rfl, g1⟩
  · rw [dif_neg hb]
    left
    have h1 := hlo.2
    have h2 : 0 < rndInt f n 1 := by omega
    have h3 : ¬ n < 0 := fun hn => by
      have := rndInt_le (f := f) (y := 0) (rndInt_zero f 1) hn.le
      omega
    simp [h3]

theorem round_atMost {n hi : ℤ} (hhi : Rep f e E hi) (h : n ≤ hi) : AtMost hi (round n 1 Nat.one_pos : Ieee f e E) := by
  have g1 := rndInt_le hhi.1 h
  unfold round
  by_cases hb : (rndInt f n 1).natAbs < 2 ^ (E + e)
  · rw [dif_pos hb]
    exact Or.inr ⟨_, _, rfl, g1⟩
  · rw [dif_neg hb]
    left
    have h1 := hhi.2
    have h2 : rndInt f n 1 < 0 := by omega
    have h3 : n < 0 := by
      by_contra hn
      have := le_rndInt (f := f) (y := 0) (rndInt_zero f 1) (not_lt.1 hn)
      omega
    simp [h3]

theorem rndNat_pos {g n d : ℕ} (hd : 0 < d) (h : d ≤ n) : 0 < rndNat g n d := by
  have hq : n / d ≠ 0 := by
    have := (Nat.le_div_iff_mul_le hd).2 (by rwa [one_mul] : 1 * d ≤ n)
    omega
  unfold rndNat
  refine Nat.mul_pos (lt_of_lt_of_le ?_ (le_roundDiv _ _)) (by positivity)
  rw [← Nat.div_div_eq_div_mul]
  refine Nat.div_pos ?_ (by positivity)
  refine le_trans (Nat.pow_le_pow_right (by norm_num) ?_) (Nat.log2_self_le hq)
  unfold excess
  omega

/-- Not zero, and negative. -/
theorem round_neg {n : ℤ} {d : ℕ} (hd : 0 < d) (hn : n < 0) (h : d ≤ n.natAbs) :
    (round n d hd : Ieee f e E) < lit 0 ∧ ((round n d hd : Ieee f e E) == lit 0) = false := by
  rw [lit_zero]
  unfold round
  by_cases hb : (rndInt f n d).natAbs < 2 ^ (E + e)
  · rw [dif_pos hb]
    have : rndInt f n d < 0 := by
      rw [rndInt, if_pos hn]
      have := rndNat_pos (g := f) hd h
      omega
    exact ⟨(lt_num _ _ _ _).2 this, (beq_num _ _ _ _).trans (by simp [this.ne])⟩
  · rw [dif_neg hb]
    simp only [hn, decide_true]
    exact ⟨rfl, rfl⟩

theorem round_pos {n : ℤ} {d : ℕ} (hd : 0 < d) (hn : 0 < n) (h : d ≤ n.natAbs) :
    lit 0 < (round n d hd : Ieee f e E) ∧ ((round n d hd : Ieee f e E) == lit 0) = false := by
  rw [lit_zero]
  unfold round
  have hn' : ¬ n < 0 := by omega
  by_cases hb : (rndInt f n d).natAbs < 2 ^ (E + e)
  · rw [dif_pos hb]
    have : 0 < rndInt f n d := by
      rw [rndInt, if_neg hn']
      have := rndNat_pos (g := f) hd h
      omega
    exact ⟨(lt_num _ _ _ _).2 this, (beq_num _ _ _ _).trans (by simp [this.ne'])⟩
  · rw [dif_neg hb]
    simp only [hn', decide_false]
    exact ⟨rfl, rfl⟩

/-- The numerator of the leading coefficient, as it is computed. -/
theorem mul_int_num (x : Ieee f e E) (k m : ℤ) (hx : IsInt x k) (hm : Rep f e E m) (hkm : Rep f e E (k * m)) : ∃ h, x * num m hm = num (k * m) h := by
  obtain ⟨h, rfl⟩ := hx
  refine ⟨hkm, ?_⟩
  rw [mul_num]
  have h1 : rndInt f (k * 2 ^ e * m) (2 ^ e) = k * m := by
    have := rndInt_mul f (k * m) (2 ^ e) (by positivity)
    rw [hkm.1] at this
    rw [← this]
    congr 1
    push_cast
    ring
  unfold round
  have h2 : (rndInt f (k * 2 ^ e * m) (2 ^ e)).natAbs < 2 ^ (E + e) := by rw [h1]; exact hkm.2
  rw [dif_pos h2]
  congr 1

theorem rep_two (hE : f + 2 ≤ E) : Rep f e E 2 := by
  refine ⟨?_, ?_⟩
  · have := rndInt_exact f 2 0 (by
      have : 2 ^ 1 ≤ 2 ^ (f + 1) := Nat.pow_le_pow_right (by norm_num) (by omega)
      simpa using this)
    simpa using this
  · have : 2 ^ 2 ≤ 2 ^ (E + e) := Nat.pow_le_pow_right (by norm_num) (by omega)
    have h2 : (2 : ℤ).natAbs = 2 := rfl
    rw [h2]
    omega

theorem rep_neg {m : ℤ} (h : Rep f e E m) : Rep f e E (-m) := ⟨by rw [rndInt_neg, h.1], by rw [Int.natAbs_neg]; exact h.2⟩

theorem rep_double {m : ℤ} (h : Rep f e E m) (hm : (2 * m).natAbs < 2 ^ (E + e)) : Rep f e E (2 * m) := by
  refine ⟨?_, hm⟩
  have key : ∀ n : ℕ, rndNat f n 1 = n → rndNat f (2 * n) 1 = 2 * n := by
    intro n hn
    by_cases h0 : n = 0
    · rw [h0]; exact rndNat_zero f 1
    obtain ⟨c, hc⟩ := dvd_of_rep hn
    rw [rndNat_one] at hn
    have hle : c ≤ 2 ^ (f + 1) := by
      have h1 := roundDiv_excess f n 1 Nat.one_pos
      rw [Nat.div_one, one_mul] at h1
      have h2 : roundDiv n (2 ^ excess f n) = c := by
        rw [roundDiv_of_dvd _ _ (by positivity) ⟨c, hc⟩]
        exact Nat.div_eq_of_eq_mul_right (by positivity) hc
      omega
    have := rndNat_exact f c (excess f n + 1) hle
    have h3 : c * 2 ^ (excess f n + 1) = 2 * n := by
      calc c * 2 ^ (excess f n + 1) = 2 * (2 ^ excess f n * c) := by ring
        _ = 2 * n := by rw [← hc]
    rwa [h3] at this
  obtain ⟨n, rfl | rfl⟩ := Int.eq_nat_or_neg m
  · have h1 := h.1
    rw [rndInt_nat] at h1
    have := key n (by exact_mod_cast h1)
    rw [show (2 * (n : ℤ)) = ((2 * n : ℕ) : ℤ) by push_cast; ring, rndInt_nat, this]
  · have h1 := h.1
    rw [rndInt_negNat] at h1
    have := key n (by omega)
    rw [show (2 * -(n : ℤ)) = -((2 * n : ℕ) : ℤ) by push_cast; ring, rndInt_negNat, this]

/-- The leading coefficient is the first component of what `parabolVertex` returns. -/
theorem parabolVertex_lead {α : Type} [Add α] [Sub α] [Mul α] [Div α] [Neg α] [LT α] [LE α] [BEq α] [DecidableLT α] [DecidableLE α] [NpScalar α]
    {Tp T0 Tn Sp S0 Sn : α} {v : α × α × α} (h : parabolVertex Tp T0 Tn Sp S0 Sn = some v) :
    v.1 = (if ((T0 - Tn) * Sp + (Tn - Tp) * S0 + (Tp - T0) * Sn) / det Tp T0 Tn == lit 0 then lit (1 / 100000000000000)
      else ((T0 - Tn) * Sp + (Tn - Tp) * S0 + (Tp - T0) * Sn) / det Tp T0 Tn) := by
  unfold parabolVertex at h
  dsimp only at h
  obtain ⟨_, h⟩ := Option.ite_none_right_eq_some.1 h
  injection h with h
  rw [← h]
  rfl

theorem units_lt {a b : ℤ} (h : (a : ℝ) / 2 ^ e < b / 2 ^ e) : a < b := by
  rw [div_lt_div_iff_of_pos_right (by positivity)] at h
  exact_mod_cast h

theorem units_gap {a b : ℤ} (h : (2 : ℝ) / 2 ^ e ≤ b / 2 ^ e - a / 2 ^ e) : 2 ≤ b - a := by
  rw [← sub_div, div_le_div_iff_of_pos_right (by positivity)] at h
  exact_mod_cast h

theorem units_double {E : ℕ} {m : ℤ} (h : 2 * |(m : ℝ) / 2 ^ e| < 2 ^ E) : (2 * m).natAbs < 2 ^ (E + e) := by
  rw [abs_div, abs_of_pos (by positivity : (0 : ℝ) < 2 ^ e), ← mul_div_assoc, div_lt_iff₀ (by positivity), ← pow_add] at h
  have h1 : ((2 * m).natAbs : ℝ) = 2 * |(m : ℝ)| := by
    rw [Nat.cast_natAbs, Int.cast_abs]
    push_cast
    rw [abs_mul, abs_of_pos (by norm_num : (0 : ℝ) < 2)]
  have h2 : ((2 * m).natAbs : ℝ) < ((2 ^ (E + e) : ℕ) : ℝ) := by rw [h1]; push_cast; exact h
  exact_mod_cast h2

theorem steps_int (hE : f + 2 ≤ E) (k : ℕ) (hb : 3 * (k + 1) ^ 3 ≤ 2 ^ (f + 1)) {Tp T0 Tn : Ieee f e E}
    (h1 : IsInt Tp (k - 1)) (h2 : IsInt T0 k) (h3 : IsInt Tn (k + 1)) :
    IsInt (T0 - Tn) (-1) ∧ IsInt (Tn - Tp) 2 ∧ IsInt (Tp - T0) (-1) := by
  have h0 : 2 ≤ 2 ^ (f + 1) := by
    have : 2 ^ 1 ≤ 2 ^ (f + 1) := Nat.pow_le_pow_right (by norm_num) (by omega)
    simpa using this
  have a := h2.sub hE h3 (by rw [show ((k : ℤ) - (k + 1)) = -1 by ring]; exact le_trans (by decide) h0)
  have b := h3.sub hE h1 (by rw [show ((k : ℤ) + 1 - (k - 1)) = 2 by ring]; exact h0)
  have c := h1.sub hE h2 (by rw [show ((k : ℤ) - 1 - k) = -1 by ring]; exact le_trans (by decide) h0)
  rw [show ((k : ℤ) - (k + 1)) = -1 by ring] at a
  rw [show ((k : ℤ) + 1 - (k - 1)) = 2 by ring] at b
  rw [show ((k : ℤ) - 1 - k) = -1 by ring] at c
  exact ⟨a, b, c⟩

/-- Division by -2. -/
theorem div_minus_two (x y : Ieee f e E) (hy : IsInt y (-2)) : (AtLeast 2 x → x / y < lit 0 ∧ (x / y == lit 0) = false) ∧
    (AtMost (-2) x → lit 0 < x / y ∧ (x / y == lit 0) = false) := by
  obtain ⟨h, rfl⟩ := hy
  have hp : (0 : ℤ) < 2 ^ e := by positivity
  have hne : (-2 * 2 ^ e : ℤ) ≠ 0 := by omega
  have hlt : (-2 * 2 ^ e : ℤ) < 0 := by omega
  have habs : (-2 * 2 ^ e : ℤ).natAbs = 2 * 2 ^ e := by
    rw [Int.natAbs_mul, Int.natAbs_pow]
    rfl
  have hd : ∀ (m : ℤ) (hm : Rep f e E m), (num m hm / num (-2 * 2 ^ e) h : Ieee f e E) =
      round (if (-2 * 2 ^ e : ℤ) < 0 then -(m * 2 ^ e) else m * 2 ^ e) (-2 * 2 ^ e : ℤ).natAbs (Int.natAbs_pos.2 hne) := fun m hm => dif_neg hne
  constructor
  · rintro (rfl | ⟨m, hm, rfl, h2⟩)
    · have : (inf false / num (-2 * 2 ^ e) h : Ieee f e E) = inf true := by
        show inf (false != decide ((-2 * 2 ^ e : ℤ) < 0)) = _
        simp [hlt]
      rw [this, lit_zero]
      exact ⟨rfl, rfl⟩
    · rw [hd, if_pos hlt] 
      refine round_neg _ (by nlinarith) ?_
      rw [habs, Int.natAbs_neg, Int.natAbs_mul, Int.natAbs_pow]
      exact Nat.mul_le_mul_right _ (by omega)
  · rintro (rfl | ⟨m, hm, rfl, h2⟩)
    · have : (inf true / num (-2 * 2 ^ e) h : Ieee f e E) = inf false := by
        show inf (true != decide ((-2 * 2 ^ e : ℤ) < 0)) = _
        simp [hlt]
      rw [this, lit_zero]
      exact ⟨rfl, rfl⟩
    · rw [hd, if_pos hlt]
      refine round_pos _ (by nlinarith) ?_
      rw [habs, Int.natAbs_neg, Int.natAbs_mul, Int.natAbs_pow]
      exact Nat.mul_le_mul_right _ (by omega)

theorem lead_peak (hE : f + 2 ≤ E) {x y z Sp S0 Sn : Ieee f e E} (hx : IsInt x (-1)) (hy : IsInt y 2) (hz : IsInt z (-1))
    (fp : Sp.isFinite = true) (f0 : S0.isFinite = true) (fn : Sn.isFinite = true) (hd : 2 * |S0.val| < 2 ^ E)
    (h1 : Sp.val < S0.val) (h2 : 2 / 2 ^ e ≤ S0.val - Sn.val) : AtLeast 2 (x * Sp + y * S0 + z * Sn) := by
  obtain ⟨p, hp, rfl⟩ := eq_num fp
  obtain ⟨m, hm, rfl⟩ := eq_num f0
  obtain ⟨n, hn, rfl⟩ := eq_num fn
  have g1 : p < m := units_lt h1
  have g2 : 2 ≤ m - n := units_gap h2
  obtain ⟨r1, e1⟩ := mul_int_num x (-1) p hx hp (by rw [neg_one_mul]; exact rep_neg hp)
  obtain ⟨r2, e2⟩ := mul_int_num y 2 m hy hm (rep_double hm (units_double hd))
  obtain ⟨r3, e3⟩ := mul_int_num z (-1) n hz hn (by rw [neg_one_mul]; exact rep_neg hn)
  rw [e1, e2, e3, add_num]
  rcases round_atLeast (e := e) (E := E) hm (show m ≤ -1 * p + 2 * m by omega) with h | ⟨q, hq, h, hle⟩
  · rw [h]
    exact Or.inl rfl
  · rw [h, add_num]
    exact round_atLeast (rep_two hE) (by omega)

theorem lead_trough (hE : f + 2 ≤ E) {x y z Sp S0 Sn : Ieee f e E} (hx : IsInt x (-1)) (hy : IsInt y 2) (hz : IsInt z (-1))
    (fp : Sp.isFinite = true) (f0 : S0.isFinite = true) (fn : Sn.isFinite = true) (hd : 2 * |S0.val| < 2 ^ E)
    (h1 : S0.val < Sp.val) (h2 : 2 / 2 ^ e ≤ Sn.val - S0.val) : AtMost (-2) (x * Sp + y * S0 + z * Sn) := by
  obtain ⟨p, hp, rfl⟩ := eq_num fp
  obtain ⟨m, hm, rfl⟩ := eq_num f0
  obtain ⟨n, hn, rfl⟩ := eq_num fn
  have g1 : m < p := units_lt h1
  have g2 : 2 ≤ n - m := units_gap h2
  obtain ⟨r1, e1⟩ := mul_int_num x (-1) p hx hp (by rw [neg_one_mul]; exact rep_neg hp)
  obtain ⟨r2, e2⟩ := mul_int_num y 2 m hy hm (rep_double hm (units_double hd))
  obtain ⟨r3, e3⟩ := mul_int_num z (-1) n hz hn (by rw [neg_one_mul]; exact rep_neg hn)
  rw [e1, e2, e3, add_num]
  rcases round_atMost (e := e) (E := E) hm (show -1 * p + 2 * m ≤ m by omega) with h | ⟨q, hq, h, hle⟩
  · rw [h]
    exact Or.inl rfl
  · rw [h, add_num]
    exact round_atMost (rep_neg (rep_two hE)) (by omega)

/-- **C128, what holds.**  Three samples at the whole stamps `k-1`, `k`, `k+1`, with `3 (k+1)³ ≤ 2ᶠ⁺¹` (in double precision: `k` up to about 144 000), finite and not within
a factor of two of overflow.  If the middle sample is above the others (by at least two units of the smallest positive number), then a vertex reported for them counts as a
maximum; if it is below them, a vertex reported for them counts as a minimum.  Missing: that a vertex is reported, and where. -/
theorem C128_kind_partial (hE : f + 2 ≤ E) (k : ℕ) (hk : 1 ≤ k) (hb : 3 * (k + 1) ^ 3 ≤ 2 ^ (f + 1)) (Sp S0 Sn : Ieee f e E)
    (fp : Sp.isFinite = true) (f0 : S0.isFinite = true) (fn : Sn.isFinite = true) (hd : 2 * |S0.val| < 2 ^ E) (v : Ieee f e E × Ieee f e E × Ieee f e E)
    (h : parabolVertex (lit ((k - 1 : ℕ) : ℚ)) (lit (k : ℚ)) (lit ((k + 1 : ℕ) : ℚ)) Sp S0 Sn = some v) :
    (Sp.val < S0.val → 2 / 2 ^ e ≤ S0.val - Sn.val → v.1 < lit 0) ∧ (S0.val < Sp.val → 2 / 2 ^ e ≤ Sn.val - S0.val → lit 0 < v.1) := by
  have hsmall : k + 1 ≤ 2 ^ (f + 1) := by nlinarith [Nat.zero_le (k ^ 2), Nat.zero_le (k ^ 3)]
  have i1 : IsInt (lit ((k - 1 : ℕ) : ℚ) : Ieee f e E) (k - 1) := by
    have := stamp_isInt (e := e) hE (k - 1) (by omega)
    rwa [show ((k - 1 : ℕ) : ℤ) = (k : ℤ) - 1 by omega] at this
  have i2 : IsInt (lit (k : ℚ) : Ieee f e E) k := stamp_isInt hE k (by omega)
  have i3 : IsInt (lit ((k + 1 : ℕ) : ℚ) : Ieee f e E) (k + 1) := by
    have := stamp_isInt (e := e) hE (k + 1) hsmall
    rwa [show ((k + 1 : ℕ) : ℤ) = (k : ℤ) + 1 by omega] at this
  have hdet := det_exact hE k hk hb i1 i2 i3
  obtain ⟨s1, s2, s3⟩ := steps_int hE k hb i1 i2 i3
  rw [parabolVertex_lead h]
  constructor
  · intro h1 h2
    obtain ⟨g1, g2⟩ := (div_minus_two _ _ hdet).1 (lead_peak hE s1 s2 s3 fp f0 fn hd h1 h2)
    rw [g2]
    exact g1
  · intro h1 h2
    obtain ⟨g1, g2⟩ := (div_minus_two _ _ hdet).2 (lead_trough hE s1 s2 s3 fp f0 fn hd h1 h2)
    rw [g2]
    exact g1

/-- A case: stamps 999, 1000, 1001 in double precision; a vertex is reported for the samples 0, 3, 1. -/
example : 3 * (1000 + 1) ^ 3 ≤ 2 ^ (52 + 1) ∧
    (parabolVertex (lit ((1000 - 1 : ℕ) : ℚ)) (lit ((1000 : ℕ) : ℚ)) (lit ((1000 + 1 : ℕ) : ℚ)) (lit 0) (lit 3) (lit 1) : Option (F64 × F64 × F64)).isSome = true ∧
    (2 : ℝ) / 2 ^ 1074 ≤ 2 := by
  refine ⟨by norm_num, by decide +kernel, ?_⟩
  rw [div_le_iff₀ (by positivity)]
  exact le_mul_of_one_le_right (by norm_num) (one_le_pow₀ (by norm_num))

/-- Dividing by zero leaves no number. -/
theorem div_zero_form (x : Ieee f e E) : x / num 0 rep_zero = nan ∨ ∃ s, x / num 0 rep_zero = inf s := by
  cases x with
  | nan => exact Or.inl rfl
  | inf s => exact Or.inr ⟨_, rfl⟩
  | num m h =>
    have h1 : (num m h / num 0 rep_zero : Ieee f e E) = if m = 0 then nan else inf (decide (m < 0)) := by
      show div (num m h) (num 0 rep_zero) = _
      simp only [div, dif_pos]
    rw [h1]
    by_cases hm : m = 0
    · rw [if_pos hm]
      exact Or.inl rfl
    · rw [if_neg hm]
      exact Or.inr ⟨_, rfl⟩

/-- No vertex is reported where the determinant is computed as zero. -/
theorem no_vertex (Tp T0 Tn Sp S0 Sn : Ieee f e E) (h : det Tp T0 Tn = num 0 rep_zero) : parabolVertex Tp T0 Tn Sp S0 Sn = none := by
  have key : ∀ a b : Ieee f e E, (a = nan ∨ ∃ s, a = inf s) → (b = nan ∨ ∃ s, b = inf s) →
      lit (-1 / 2) * b / (if a == lit 0 then lit (1 / 100000000000000) else a) = nan := by
    intro a b ha hb
    have h0 : (a == lit 0) = false := by
      rw [lit_zero]
      rcases ha with rfl | ⟨s, rfl⟩ <;> rfl
    rw [h0]
    have hb' : lit (-1 / 2) * b = nan ∨ ∃ s, lit (-1 / 2) * b = inf s := by
      generalize (lit (-1 / 2) : Ieee f e E) = c
      rcases hb with rfl | ⟨s, rfl⟩
      · left; cases c <;> rfl
      · cases c with
        | nan => exact Or.inl rfl
        | inf t => exact Or.inr ⟨_, rfl⟩
        | num m hm =>
          have h1 : (num m hm * inf s : Ieee f e E) = if m = 0 then nan else inf (decide (m < 0) != s) := rfl
          rw [h1]
          by_cases h0 : m = 0
          · rw [if_pos h0]
            exact Or.inl rfl
          · rw [if_neg h0]
            exact Or.inr ⟨_, rfl⟩
    rcases hb' with h1 | ⟨s, h1⟩
    · rw [h1]; rfl
    · rw [h1]
      rcases ha with rfl | ⟨t, rfl⟩ <;> rfl
  unfold det at h
  unfold parabolVertex
  dsimp only
  rw [h, key _ _ (div_zero_form _) (div_zero_form _)]
  refine if_neg ?_
  rintro ⟨h1, -⟩
  exact Bool.false_ne_true h1

/-- **C128, violated: lost extrema.**  At the stamps 165143, 165144, 165145 of a double precision timeline no vertex is ever reported, whatever the samples are. -/
theorem C128_lost (Sp S0 Sn : F64) : parabolVertex (lit 165143) (lit 165144) (lit 165145) Sp S0 Sn = none :=
  no_vertex _ _ _ _ _ _ (by decide +kernel)

/-- The same in single precision, at the stamps 203, 204, 205. -/
theorem C128_lost_float32 (Sp S0 Sn : F32) : parabolVertex (lit 203) (lit 204) (lit 205) Sp S0 Sn = none :=
  no_vertex _ _ _ _ _ _ (by decide +kernel)

/-- **C128, violated: maxima turned to minima.**  The sample at 229007 is higher than its neighbours, but the vertex found there is reported as a minimum, with value -1. -/
theorem C128_turned :
    okWith (fun T => decide (T = whole [0, 1, 229006, 229007, 229008]))
      (prepareTime { (Cfg.default : Cfg F64) with detection := .parabol } (whole [0, 1, 0, 1, 0]) (some (whole [0, 1, 229006, 229007, 229008]))) = true ∧
    okWith (fun ex => decide (ex.minPos.contains (lit 229007) = true ∧ ex.minVal.contains (lit (-1)) = true ∧ ex.maxPos.contains (lit 229007) = false))
      (findExtrema .parabol (whole [0, 1, 229006, 229007, 229008]) (whole [0, 1, 0, 1, 0])) = true := by
  decide +kernel

/-- **C128, violated: wrong values.**  The parabola through (149999, 0), (150000, 1), (150001, 0) has its vertex at height 1; reported is 2.  Through (99999, 0.1), (100000, 1),
(100001, 0.3) it has height 1.003125 in exact arithmetic; what is reported in double precision exceeds 1.04. -/
theorem C128_wrong :
    (match (parabolVertex (lit 149999) (lit 150000) (lit 150001) (lit 0) (lit 1) (lit 0) : Option (F64 × F64 × F64)) with
      | some v => decide (v.2.1 = lit 150000 ∧ v.2.2 = lit 2)
      | none => false) = true ∧
    (match (parabolVertex (lit 99999) (lit 100000) (lit 100001) (lit (1 / 10)) (lit 1) (lit (3 / 10)) : Option (F64 × F64 × F64)) with
      | some v => decide (lit (104 / 100) < v.2.2)
      | none => false) = true ∧
    (match (parabolVertex 99999 100000 100001 (1 / 10) 1 (3 / 10) : Option (ℚ × ℚ × ℚ)) with
      | some v => decide (v.2.2 = 1003125 / 1000000)
      | none => false) = true := by
  decide +kernel

end Ieee
end PyEMD
