import Verif.Lemmas.Scipy

/-!
# How the slopes at the knots change with units and direction
-/

set_option linter.unusedSectionVars false

namespace PyEMD
namespace Scipy
open _root_.Spec (SolvesTridiagonal)

variable {K : Type} [Field K] [LinearOrder K] [IsStrictOrderedRing K] [FloorRing K]

/-- Steps are `a` times and secants `r` times the original ones. -/
def Scaled (n : Nat) (a r : K) (x y x' y' : Nat → K) : Prop :=
  ∀ i, i + 1 < n → dx x' i = a * dx x i ∧ secant x' y' i = r * secant x y i

/-- The knots in reverse order. -/
def Rev (n : Nat) (x y x' y' : Nat → K) : Prop :=
  ∀ i, i + 1 < n → dx x' i = dx x (n - 2 - i) ∧ secant x' y' i = -secant x y (n - 2 - i)

theorem scaled_of {n : Nat} {a e c b : K} {x y x' y' : Nat → K} (ha : a ≠ 0) (hx : ∀ i < n, x' i = a * x i + e)
    (hy : ∀ i < n, y' i = c * y i + b) : Scaled n a (c / a) x y x' y' := by
  intro i hi
  unfold secant dx
  rw [hx i (by omega), hx (i + 1) hi, hy i (by omega), hy (i + 1) hi]
  refine ⟨by ring, ?_⟩
  by_cases h : x (i + 1) - x i = 0
  · rw [h, show a * x (i + 1) + e - (a * x i + e) = a * (x (i + 1) - x i) by ring, h]; simp
  · rw [show a * x (i + 1) + e - (a * x i + e) = a * (x (i + 1) - x i) by ring]
    field_simp
    ring

theorem rev_of {n : Nat} {c : K} {x y x' y' : Nat → K} (hx : ∀ i < n, x' i = c - x (n - 1 - i))
    (hy : ∀ i < n, y' i = y (n - 1 - i)) : Rev n x y x' y' := by
  intro i hi
  unfold secant dx
  rw [hx i (by omega), hx (i + 1) hi, hy i (by omega), hy (i + 1) hi]
  rw [show n - 1 - (i + 1) = n - 2 - i by omega, show n - 1 - i = n - 2 - i + 1 by omega]
  refine ⟨by ring, ?_⟩
  rw [show c - x (n - 2 - i) - (c - x (n - 2 - i + 1)) = x (n - 2 - i + 1) - x (n - 2 - i) by ring, ← neg_div]
  congr 1
  ring

/-! ### `np.gradient` -/

theorem gradient_mid (x y : Nat → K) (n i : Nat) (hx : Incr n x) (h0 : 0 < i) (hi : i + 1 < n) :
    gradient x y n i = (dx x i * secant x y (i - 1) + dx x (i - 1) * secant x y i) / (dx x (i - 1) + dx x i) := by
  unfold gradient
  rw [if_neg (by omega), if_neg (by omega)]
  have h1 : 0 < dx x (i - 1) := hx.dx_pos (by omega)
  have h2 : 0 < dx x i := hx.dx_pos hi
  simp only
  unfold secant
  rw [show i - 1 + 1 = i by omega]
  generalize dx x (i - 1) = p at *
  generalize dx x i = q at *
  have h3 : q + p ≠ 0 := by positivity
  have h4 : p + q ≠ 0 := by positivity
  field_simp
  ring

theorem gradient_scaled {n : Nat} {a r : K} {x y x' y' : Nat → K} (h : Scaled n a r x y x' y') (ha : 0 < a) (hx : Incr n x) (hx' : Incr n x')
    (hn : 2 ≤ n) (i : Nat) (hi : i < n) : gradient x' y' n i = r * gradient x y n i := by
  by_cases h0 : i = 0
  · unfold gradient; rw [if_pos h0, if_pos h0, (h 0 (by omega)).2]
  · by_cases h1 : i = n - 1
    · unfold gradient; rw [if_neg h0, if_neg h0, if_pos h1, if_pos h1, (h (n - 2) (by omega)).2]
    · rw [gradient_mid x y n i hx (by omega) (by omega), gradient_mid x' y' n i hx' (by omega) (by omega)]
      rw [(h i (by omega)).1, (h i (by omega)).2, (h (i - 1) (by omega)).1, (h (i - 1) (by omega)).2]
      have h1 : 0 < dx x (i - 1) := hx.dx_pos (by omega)
      have h2 : 0 < dx x i := hx.dx_pos (by omega)
      generalize dx x (i - 1) = p at *
      generalize dx x i = q at *
      have h4 : p + q ≠ 0 := by positivity
      rw [← mul_add]
      field_simp

theorem gradient_rev {n : Nat} {x y x' y' : Nat → K} (h : Rev n x y x' y') (hx : Incr n x) (hx' : Incr n x')
    (hn : 2 ≤ n) (i : Nat) (hi : i < n) : gradient x' y' n i = -gradient x y n (n - 1 - i) := by
  by_cases h0 : i = 0
  · subst h0
    unfold gradient
    rw [if_pos rfl, if_neg (by omega), if_pos (by omega), (h 0 (by omega)).2]
    simp
  · by_cases h1 : i = n - 1
    · subst h1
      unfold gradient
      rw [if_neg (by omega), if_pos rfl, if_pos (by omega), (h (n - 2) (by omega)).2, show n - 2 - (n - 2) = 0 by omega]
    · rw [gradient_mid x y n _ hx (by omega) (by omega), gradient_mid x' y' n i hx' (by omega) (by omega)]
      rw [(h i (by omega)).1, (h i (by omega)).2, (h (i - 1) (by omega)).1, (h (i - 1) (by omega)).2]
      rw [show n - 2 - i = n - 1 - i - 1 by omega, show n - 2 - (i - 1) = n - 1 - i by omega]
      rw [← neg_div, add_comm (dx x (n - 1 - i))]
      congr 1
      ring

/-! ### pchip -/

theorem sgn_pos {a : K} (h : 0 < a) : sgn a = 1 := by unfold sgn; rw [lit_zero, if_pos h]
theorem sgn_neg' {a : K} (h : a < 0) : sgn a = -1 := by unfold sgn; rw [lit_zero, if_neg (not_lt.2 h.le), if_pos h]
theorem sgn_zero : sgn (0 : K) = 0 := by simp [sgn]

theorem sgn_mul (a b : K) : sgn (a * b) = sgn a * sgn b := by
  rcases lt_trichotomy a 0 with ha | rfl | ha <;> rcases lt_trichotomy b 0 with hb | rfl | hb
  · rw [sgn_pos (mul_pos_of_neg_of_neg ha hb), sgn_neg' ha, sgn_neg' hb]; rfl
  · simp [sgn_zero]
  · rw [sgn_neg' (mul_neg_of_neg_of_pos ha hb), sgn_neg' ha, sgn_pos hb]; rfl
  · simp [sgn_zero]
  · simp [sgn_zero]
  · simp [sgn_zero]
  · rw [sgn_neg' (mul_neg_of_pos_of_neg ha hb), sgn_pos ha, sgn_neg' hb]; rfl
  · simp [sgn_zero]
  · rw [sgn_pos (mul_pos ha hb), sgn_pos ha, sgn_pos hb]; rfl

theorem sgn_ne_zero {a : K} (h : a ≠ 0) : sgn a ≠ 0 := by
  rcases lt_or_gt_of_ne h with h | h
  · rw [sgn_neg' h]; decide
  · rw [sgn_pos h]; decide

theorem sgn_mul_eq {r a b : K} (hr : r ≠ 0) : sgn (r * a) = sgn (r * b) ↔ sgn a = sgn b := by
  rw [sgn_mul, sgn_mul]
  exact mul_right_inj' (sgn_ne_zero hr)

theorem pchipEnd_scaled {a r h0 h1 m0 m1 : K} (ha : 0 < a) (hr : r ≠ 0) :
    pchipEnd (a * h0) (a * h1) (r * m0) (r * m1) = r * pchipEnd h0 h1 m0 m1 := by
  unfold pchipEnd
  have hd : ((2 * (a * h0) + a * h1) * (r * m0) - a * h0 * (r * m1)) / (a * h0 + a * h1) = r * (((2 * h0 + h1) * m0 - h0 * m1) / (h0 + h1)) := by
    by_cases h : h0 + h1 = 0
    · rw [← mul_add, h]; simp
    · rw [← mul_add]; field_simp
  simp only [lit_two, lit_three, lit_zero, pyAbs_eq]
  rw [hd]
  generalize ((2 * h0 + h1) * m0 - h0 * m1) / (h0 + h1) = d
  simp only [ne_eq, sgn_mul_eq hr, abs_mul]
  have hlt : 3 * (|r| * |m0|) < |r| * |d| ↔ 3 * |m0| < |d| := by
    rw [show 3 * (|r| * |m0|) = |r| * (3 * |m0|) by ring]
    exact mul_lt_mul_iff_right₀ (abs_pos.2 hr)
  simp only [hlt]
  split
  · simp
  · split
    · ring
    · rfl

theorem pchipSlope_scaled {n : Nat} {a r : K} {x y x' y' : Nat → K} (h : Scaled n a r x y x' y') (ha : 0 < a) (hr : r ≠ 0)
    (hx : Incr n x) (hn : 2 ≤ n) (i : Nat) (hi : i < n) : pchipSlope x' y' n i = r * pchipSlope x y n i := by
  unfold pchipSlope
  by_cases h2 : n = 2
  · rw [if_pos h2, if_pos h2, (h 0 (by omega)).2]
  rw [if_neg h2, if_neg h2]
  by_cases h0 : i = 0
  · rw [if_pos h0, if_pos h0, (h 0 (by omega)).1, (h 0 (by omega)).2, (h 1 (by omega)).1, (h 1 (by omega)).2, pchipEnd_scaled ha hr]
  rw [if_neg h0, if_neg h0]
  by_cases h1 : i = n - 1
  · rw [if_pos h1, if_pos h1, (h (n - 2) (by omega)).1, (h (n - 2) (by omega)).2, (h (n - 3) (by omega)).1, (h (n - 3) (by omega)).2,
      pchipEnd_scaled ha hr]
  rw [if_neg h1, if_neg h1, (h i (by omega)).1, (h i (by omega)).2, (h (i - 1) (by omega)).1, (h (i - 1) (by omega)).2]
  have hp : 0 < dx x (i - 1) := hx.dx_pos (by omega)
  have hq : 0 < dx x i := hx.dx_pos (by omega)
  generalize dx x (i - 1) = p at *
  generalize dx x i = q at *
  generalize secant x y (i - 1) = m0
  generalize secant x y i = m1
  simp only [lit_two, lit_zero, lit_one, beq_iff_eq, ne_eq, sgn_mul_eq hr, mul_eq_zero, hr, false_or]
  split
  · simp
  next hc =>
    push Not at hc
    obtain ⟨hs, hm1, hm0⟩ := hc
    have hsum : m0 * (q + 2 * p) + m1 * (2 * q + p) ≠ 0 := by
      rcases lt_or_gt_of_ne hm0 with h3 | h3
      · have h4 : m1 < 0 := by
          rcases lt_or_gt_of_ne hm1 with h4 | h4
          · exact h4
          · rw [sgn_neg' h3, sgn_pos h4] at hs; exact absurd hs (by decide)
        have := mul_neg_of_neg_of_pos h3 (show 0 < q + 2 * p by positivity)
        have := mul_neg_of_neg_of_pos h4 (show 0 < 2 * q + p by positivity)
        linarith
      · have h4 : 0 < m1 := by
          rcases lt_or_gt_of_ne hm1 with h4 | h4
          · rw [sgn_pos h3, sgn_neg' h4] at hs; exact absurd hs (by decide)
          · exact h4
        positivity
    have hw : 2 * q + p + (q + 2 * p) ≠ 0 := by positivity
    have e1 : (2 * (a * q) + a * p) / (r * m0) + (a * q + 2 * (a * p)) / (r * m1) = a / r * ((2 * q + p) / m0 + (q + 2 * p) / m1) := by
      field_simp
    have e2 : 2 * (a * q) + a * p + (a * q + 2 * (a * p)) = a * (2 * q + p + (q + 2 * p)) := by ring
    rw [e1, e2]
    have e3 : (2 * q + p) / m0 + (q + 2 * p) / m1 = (m0 * (q + 2 * p) + m1 * (2 * q + p)) / (m0 * m1) := by
      field_simp
      ring
    rw [e3]
    generalize m0 * (q + 2 * p) + m1 * (2 * q + p) = w at *
    generalize 2 * q + p + (q + 2 * p) = v at *
    field_simp

theorem pchipEnd_neg (h0 h1 m0 m1 : K) : pchipEnd h0 h1 (-m0) (-m1) = -pchipEnd h0 h1 m0 m1 := by
  have := pchipEnd_scaled (a := 1) (r := -1) (h0 := h0) (h1 := h1) (m0 := m0) (m1 := m1) one_pos (by simp)
  simpa using this

theorem sgn_neg_eq (a b : K) : sgn (-a) = sgn (-b) ↔ sgn a = sgn b := by
  have := sgn_mul_eq (r := (-1 : K)) (a := a) (b := b) (by simp)
  simpa using this

theorem pchipSlope_rev {n : Nat} {x y x' y' : Nat → K} (h : Rev n x y x' y') (hn : 2 ≤ n) (i : Nat) (hi : i < n) :
    pchipSlope x' y' n i = -pchipSlope x y n (n - 1 - i) := by
  unfold pchipSlope
  by_cases h2 : n = 2
  · rw [if_pos h2, if_pos h2, (h 0 (by omega)).2, show n - 2 - 0 = 0 by omega]
  rw [if_neg h2, if_neg h2]
  by_cases h0 : i = 0
  · rw [if_pos h0, if_neg (by omega), if_pos (by omega), (h 0 (by omega)).1, (h 0 (by omega)).2, (h 1 (by omega)).1, (h 1 (by omega)).2,
      pchipEnd_neg, show n - 2 - 0 = n - 2 by omega, show n - 2 - 1 = n - 3 by omega]
  rw [if_neg h0]
  by_cases h1 : i = n - 1
  · rw [if_pos h1, if_pos (by omega), (h (n - 2) (by omega)).1, (h (n - 2) (by omega)).2, (h (n - 3) (by omega)).1,
      (h (n - 3) (by omega)).2, pchipEnd_neg, show n - 2 - (n - 2) = 0 by omega, show n - 2 - (n - 3) = 1 by omega]
  rw [if_neg h1, if_neg (show ¬ n - 1 - i = 0 by omega), if_neg (show ¬ n - 1 - i = n - 1 by omega), (h i (by omega)).1, (h i (by omega)).2,
    (h (i - 1) (by omega)).1, (h (i - 1) (by omega)).2]
  rw [show n - 2 - i = n - 1 - i - 1 by omega, show n - 2 - (i - 1) = n - 1 - i by omega]
  generalize dx x (n - 1 - i - 1) = p
  generalize dx x (n - 1 - i) = q
  generalize secant x y (n - 1 - i - 1) = m0
  generalize secant x y (n - 1 - i) = m1
  simp only [lit_two, lit_zero, lit_one, beq_iff_eq, ne_eq, sgn_neg_eq, neg_eq_zero]
  by_cases hc : ¬ sgn m1 = sgn m0 ∨ m0 = 0 ∨ m1 = 0
  · rw [if_pos hc, if_pos (by rcases hc with h | h | h; exacts [Or.inl (fun e => h e.symm), Or.inr (Or.inr h), Or.inr (Or.inl h)]), neg_zero]
  · rw [if_neg hc, if_neg (by
      rintro (h | h | h)
      · exact hc (Or.inl (fun e => h e.symm))
      · exact hc (Or.inr (Or.inr h))
      · exact hc (Or.inr (Or.inl h)))]
    rw [div_neg, div_neg, ← neg_add, neg_div, div_neg]
    congr 3
    · ring
    · ring

/-! ### Akima -/

theorem npMax_scale {l : List K} (h : l ≠ []) {c : K} (hc : 0 ≤ c) : npMax (l.map (fun x => c * x)) = c * npMax l := by
  obtain ⟨h1, h2⟩ := npMax_spec (l := l.map (fun x => c * x)) (by simpa using h)
  obtain ⟨h3, h4⟩ := npMax_spec h
  apply le_antisymm
  · obtain ⟨z, hz, hz'⟩ := List.mem_map.1 h1
    rw [← hz']
    exact mul_le_mul_of_nonneg_left (h4 z hz) hc
  · exact h2 _ (List.mem_map.2 ⟨_, h3, rfl⟩)

theorem npMax_perm {l l' : List K} (h : l ≠ []) (hp : ∀ x, x ∈ l ↔ x ∈ l') : npMax l = npMax l' := by
  have h' : l' ≠ [] := by
    rintro rfl
    exact h (List.eq_nil_iff_forall_not_mem.2 (fun x hx => by simpa using (hp x).1 hx))
  obtain ⟨h1, h2⟩ := npMax_spec h
  obtain ⟨h3, h4⟩ := npMax_spec h'
  exact le_antisymm (h4 _ ((hp _).1 h1)) (h2 _ ((hp _).2 h3))

theorem akimaM_scaled {n : Nat} {a r : K} {x y x' y' : Nat → K} (h : Scaled n a r x y x' y') (hn : 3 ≤ n) (j : Nat) (hj : j < n + 3) :
    akimaM x' y' n j = r * akimaM x y n j := by
  unfold akimaM
  simp only
  rw [(h 0 (by omega)).2, (h 1 (by omega)).2, (h (n - 2) (by omega)).2, (h (n - 3) (by omega)).2]
  split_ifs
  · ring
  · ring
  · ring
  · ring
  · exact (h (j - 2) (by omega)).2

theorem akimaM_rev {n : Nat} {x y x' y' : Nat → K} (h : Rev n x y x' y') (hn : 3 ≤ n) (j : Nat) (hj : j < n + 3) :
    akimaM x' y' n j = -akimaM x y n (n + 2 - j) := by
  unfold akimaM
  simp only
  rw [(h 0 (by omega)).2, (h 1 (by omega)).2, (h (n - 2) (by omega)).2, (h (n - 3) (by omega)).2]
  rw [show n - 2 - 0 = n - 2 by omega, show n - 2 - 1 = n - 3 by omega, show n - 2 - (n - 2) = 0 by omega, show n - 2 - (n - 3) = 1 by omega]
  by_cases h0 : j = 0
  · rw [if_pos h0, if_neg (by omega), if_neg (by omega), if_neg (by omega), if_pos (by omega)]; ring
  by_cases h1 : j = 1
  · rw [if_neg h0, if_pos h1, if_neg (by omega), if_neg (by omega), if_pos (by omega)]; ring
  by_cases h2 : j = n + 1
  · rw [if_neg h0, if_neg h1, if_pos h2, if_neg (by omega), if_pos (by omega)]; ring
  by_cases h3 : j = n + 2
  · rw [if_neg h0, if_neg h1, if_neg h2, if_pos h3, if_pos (by omega)]; ring
  · rw [if_neg h0, if_neg h1, if_neg h2, if_neg h3, if_neg (by omega), if_neg (by omega), if_neg (by omega), if_neg (by omega),
      (h (j - 2) (by omega)).2, show n - 2 - (j - 2) = n + 2 - j - 2 by omega]

theorem akimaSlope_scaled {n : Nat} {a r : K} {x y x' y' : Nat → K} (h : Scaled n a r x y x' y') (hr : r ≠ 0) (hn : 3 ≤ n)
    (i : Nat) (hi : i < n) : akimaSlope x' y' n i = r * akimaSlope x y n i := by
  have hF1 : ∀ i < n, akimaF1 x' y' n i = |r| * akimaF1 x y n i := by
    intro i hi
    unfold akimaF1
    rw [akimaM_scaled h hn _ (by omega), akimaM_scaled h hn _ (by omega), pyAbs_eq, pyAbs_eq, ← mul_sub, abs_mul]
  have hF2 : ∀ i < n, akimaF2 x' y' n i = |r| * akimaF2 x y n i := by
    intro i hi
    unfold akimaF2
    rw [akimaM_scaled h hn _ (by omega), akimaM_scaled h hn _ (by omega), pyAbs_eq, pyAbs_eq, ← mul_sub, abs_mul]
  have hr0 : 0 < |r| := abs_pos.2 hr
  unfold akimaSlope
  simp only
  have hmap : (List.range n).map (fun i => akimaF1 x' y' n i + akimaF2 x' y' n i) =
      ((List.range n).map (fun i => akimaF1 x y n i + akimaF2 x y n i)).map (fun z => |r| * z) := by
    rw [List.map_map]
    apply List.map_congr_left
    intro k hk
    rw [Function.comp_apply, hF1 k (by simpa using hk), hF2 k (by simpa using hk), mul_add]
  rw [hmap, npMax_scale (by simp; omega) hr0.le, hF1 i hi, hF2 i hi, ← mul_add]
  rw [akimaM_scaled h hn _ (by omega), akimaM_scaled h hn _ (by omega), akimaM_scaled h hn _ (by omega), akimaM_scaled h hn _ (by omega)]
  generalize npMax ((List.range n).map (fun i => akimaF1 x y n i + akimaF2 x y n i)) = M
  have hlt : lit (1 / 1000000000) * (|r| * M) < |r| * (akimaF1 x y n i + akimaF2 x y n i) ↔
      lit (1 / 1000000000) * M < akimaF1 x y n i + akimaF2 x y n i := by
    rw [mul_left_comm]
    exact mul_lt_mul_iff_right₀ hr0
  simp only [hlt]
  split
  · by_cases hz : akimaF1 x y n i + akimaF2 x y n i = 0
    · rw [hz]; simp
    · field_simp
  · ring

theorem akimaSlope_rev {n : Nat} {x y x' y' : Nat → K} (h : Rev n x y x' y') (hn : 3 ≤ n)
    (i : Nat) (hi : i < n) : akimaSlope x' y' n i = -akimaSlope x y n (n - 1 - i) := by
  have hF1 : ∀ i < n, akimaF1 x' y' n i = akimaF2 x y n (n - 1 - i) := by
    intro i hi
    unfold akimaF1 akimaF2
    rw [akimaM_rev h hn _ (by omega), akimaM_rev h hn _ (by omega), pyAbs_eq, pyAbs_eq, show n + 2 - (i + 3) = n - 1 - i by omega,
      show n + 2 - (i + 2) = n - 1 - i + 1 by omega]
    congr 1; ring
  have hF2 : ∀ i < n, akimaF2 x' y' n i = akimaF1 x y n (n - 1 - i) := by
    intro i hi
    unfold akimaF1 akimaF2
    rw [akimaM_rev h hn _ (by omega), akimaM_rev h hn _ (by omega), pyAbs_eq, pyAbs_eq, show n + 2 - (i + 1) = n - 1 - i + 2 by omega,
      show n + 2 - i = n - 1 - i + 3 by omega]
    congr 1; ring
  unfold akimaSlope
  simp only
  have hmax : npMax ((List.range n).map (fun i => akimaF1 x' y' n i + akimaF2 x' y' n i)) =
      npMax ((List.range n).map (fun i => akimaF1 x y n i + akimaF2 x y n i)) := by
    apply npMax_perm (by simp; omega)
    intro z
    simp only [List.mem_map, List.mem_range]
    constructor
    · rintro ⟨k, hk, rfl⟩
      exact ⟨n - 1 - k, by omega, by rw [hF1 k hk, hF2 k hk, add_comm]⟩
    · rintro ⟨k, hk, rfl⟩
      exact ⟨n - 1 - k, by omega, by rw [hF1 _ (by omega), hF2 _ (by omega), show n - 1 - (n - 1 - k) = k by omega, add_comm]⟩
  rw [hmax, hF1 i hi, hF2 i hi]
  rw [akimaM_rev h hn _ (by omega), akimaM_rev h hn _ (by omega), akimaM_rev h hn _ (by omega), akimaM_rev h hn _ (by omega)]
  rw [show n + 2 - (i + 1) = n - 1 - i + 2 by omega, show n + 2 - (i + 2) = n - 1 - i + 1 by omega, show n + 2 - i = n - 1 - i + 3 by omega,
    show n + 2 - (i + 3) = n - 1 - i by omega]
  rw [add_comm (akimaF2 x y n (n - 1 - i)) (akimaF1 x y n (n - 1 - i))]
  split
  · rw [← neg_div]
    congr 1
    ring
  · ring

/-! ### Cubic spline -/

theorem cubic_pivots {n : Nat} {x : Nat → K} (hx : Incr n x) (hn : 3 ≤ n) :
    ∀ i < n, Compact.pivot (cubicA x n) (cubicB x n) (cubicC x n) i ≠ 0 := by
  have hd : ∀ i, i + 1 < n → 0 < dx x i := fun i hi => hx.dx_pos hi
  by_cases h3 : n = 3
  · subst h3
    have h0 := hd 0 (by omega)
    have h1 := hd 1 (by omega)
    intro i hi
    obtain rfl | rfl | rfl : i = 0 ∨ i = 1 ∨ i = 2 := by omega
    · simp [Compact.pivot, cubicB]
    · simp only [Compact.pivot, Compact.cpAt, cubicA, cubicB, cubicC]
      norm_num
      linarith
    · simp only [Compact.pivot, Compact.cpAt, cubicA, cubicB, cubicC]
      norm_num
      have : 0 < 2 * (dx x 0 + dx x 1) - dx x 1 := by linarith
      intro e
      rw [sub_eq_zero, eq_div_iff this.ne'] at e
      linarith
  · have h2 : ∀ i, x (i + 2) - x i = dx x i + dx x (i + 1) := by intro i; unfold dx; ring
    have mid : ∀ i, 0 < i → i + 1 < n → 0 < Compact.pivot (cubicA x n) (cubicB x n) (cubicC x n) i ∧
        0 ≤ Compact.cpAt (cubicA x n) (cubicB x n) (cubicC x n) i ∧ Compact.cpAt (cubicA x n) (cubicB x n) (cubicC x n) i < 1 ∧
        dx x (i - 1) + dx x i ≤ Compact.pivot (cubicA x n) (cubicB x n) (cubicC x n) i ∧
        Compact.cpAt (cubicA x n) (cubicB x n) (cubicC x n) i * Compact.pivot (cubicA x n) (cubicB x n) (cubicC x n) i = dx x (i - 1) ∧
        (1 < i → dx x (i - 1) + dx x i < Compact.pivot (cubicA x n) (cubicB x n) (cubicC x n) i) := by
      intro i hi0
      induction i with
      | zero => omega
      | succ i ih =>
        intro hi
        have hp : Compact.cpAt (cubicA x n) (cubicB x n) (cubicC x n) (i + 1) =
            cubicC x n (i + 1) / Compact.pivot (cubicA x n) (cubicB x n) (cubicC x n) (i + 1) := by
          simp only [Compact.pivot, Compact.cpAt]
        have hC : cubicC x n (i + 1) = dx x i := by
          unfold cubicC
          rw [if_neg h3, if_neg (by omega)]
          rfl
        have hpiv : dx x i + dx x (i + 1) ≤ Compact.pivot (cubicA x n) (cubicB x n) (cubicC x n) (i + 1) ∧
            (0 < i → dx x i + dx x (i + 1) < Compact.pivot (cubicA x n) (cubicB x n) (cubicC x n) (i + 1)) := by
          simp only [Compact.pivot]
          have hA : cubicA x n (i + 1) = dx x (i + 1) := by
            unfold cubicA
            rw [if_neg h3, if_neg (by omega)]
          have hB : cubicB x n (i + 1) = 2 * (dx x i + dx x (i + 1)) := by
            unfold cubicB
            rw [if_neg h3, if_neg (by omega), if_neg (by omega), lit_two]
            rfl
          rw [hA, hB]
          have hi1 := hd (i + 1) (by omega)
          have hi2 := hd i (by omega)
          by_cases h0 : i = 0
          · subst h0
            have : Compact.cpAt (cubicA x n) (cubicB x n) (cubicC x n) 0 = (dx x 0 + dx x 1) / dx x 1 := by
              simp only [Compact.cpAt, cubicB, cubicC, if_neg h3, if_true]
              rw [h2 0]
            rw [this]
            have : dx x (0 + 1) * ((dx x 0 + dx x 1) / dx x 1) = dx x 0 + dx x 1 := by
              rw [mul_comm]; exact div_mul_cancel₀ _ hi1.ne'
            rw [this]
            exact ⟨by linarith, fun h => absurd h (by omega)⟩
          · obtain ⟨-, -, h5, -⟩ := ih (by omega) (by omega)
            have := mul_lt_mul_of_pos_left h5 hi1
            exact ⟨by linarith, fun _ => by linarith⟩
        have hi1 := hd (i + 1) (by omega)
        have hi2 := hd i (by omega)
        have hpos : 0 < Compact.pivot (cubicA x n) (cubicB x n) (cubicC x n) (i + 1) := by linarith [hpiv.1]
        refine ⟨hpos, ?_, ?_, by simpa using hpiv.1, ?_, fun h => by simpa using hpiv.2 (by omega)⟩
        · rw [hp, hC]; positivity
        · rw [hp, hC, div_lt_one hpos]; linarith [hpiv.1]
        · rw [hp, hC]; simpa using div_mul_cancel₀ (dx x i) hpos.ne'
    intro i hi
    by_cases h0 : i = 0
    · subst h0
      simp only [Compact.pivot, cubicB, if_neg h3, if_true]
      exact (hd 1 (by omega)).ne'
    · by_cases h1 : i + 1 < n
      · exact (mid i (by omega) h1).1.ne'
      · obtain ⟨k, rfl⟩ : ∃ k, i = k + 1 := ⟨i - 1, by omega⟩
        obtain ⟨h4, h5, h6, h7, h8, h9⟩ := mid k (by omega) (by omega)
        simp only [Compact.pivot]
        have hA : cubicA x n (k + 1) = dx x (k - 1) + dx x k := by
          unfold cubicA
          rw [if_neg h3, if_pos (by omega), show n - 1 = k - 1 + 2 by omega, show n - 3 = k - 1 by omega, h2 (k - 1),
            show k - 1 + 1 = k by omega]
        have hB : cubicB x n (k + 1) = dx x (k - 1) := by
          unfold cubicB
          rw [if_neg h3, if_neg (by omega), if_pos (by omega), show n - 3 = k - 1 by omega]
        rw [hA, hB]
        have h10 : 0 < Compact.cpAt (cubicA x n) (cubicB x n) (cubicC x n) k := by
          rcases h5.lt_or_eq with h | h
          · exact h
          · rw [← h, zero_mul] at h8
            have := hd (k - 1) (by omega)
            linarith
        have := mul_lt_mul_of_pos_left (h9 (by omega)) h10
        intro e
        linarith

theorem cubicSlopes_total {n : Nat} {x : Nat → K} (hx : Incr n x) (hn : 3 ≤ n) (y : Nat → K) : ∃ s, cubicSlopes x y n = .ok s :=
  Compact.tdma_total _ _ _ _ n (by omega) (cubic_pivots hx hn)

theorem cubicSlopes_solves {n : Nat} {x y : Nat → K} {s : List K} (h : cubicSlopes x y n = .ok s) :
    s.length = n ∧ SolvesTridiagonal (cubicA x n) (cubicB x n) (cubicC x n) (cubicD x y n) n (entry s) := by
  have := Compact.tdma_solves _ _ _ _ n s h
  have e : entry s = fun i => s.getD i 0 := by funext i; rw [entry, lit_zero]
  rw [e]; exact this

theorem cubicSlopes_unique {n : Nat} {x y : Nat → K} {s : List K} (h : cubicSlopes x y n = .ok s) {z : Nat → K}
    (hz : SolvesTridiagonal (cubicA x n) (cubicB x n) (cubicC x n) (cubicD x y n) n z) (i : Nat) (hi : i < n) : entry s i = z i := by
  have := Compact.tdma_unique _ _ _ _ n s h z hz
  rw [this]
  simp [entry, List.getD, hi]

theorem step2 (x : Nat → K) (i : Nat) : x (i + 2) - x i = dx x i + dx x (i + 1) := by unfold dx; ring

theorem cubicSlopes_scaled {n : Nat} {a r : K} {x y x' y' : Nat → K} (h : Scaled n a r x y x' y') (ha : 0 < a) (hx : Incr n x)
    (hx' : Incr n x') (hn : 3 ≤ n) {s s' : List K} (hs : cubicSlopes x y n = .ok s) (hs' : cubicSlopes x' y' n = .ok s') (i : Nat) (hi : i < n) :
    entry s' i = r * entry s i := by
  refine cubicSlopes_unique hs' (z := fun i => r * entry s i) ?_ i hi
  obtain ⟨-, hsol⟩ := cubicSlopes_solves hs
  have hd : ∀ i, i + 1 < n → dx x' i = a * dx x i := fun i hi => (h i hi).1
  have hm : ∀ i, i + 1 < n → secant x' y' i = r * secant x y i := fun i hi => (h i hi).2
  intro i hi
  have row := hsol i hi
  simp only
  by_cases h3 : n = 3
  · subst h3
    unfold cubicA cubicB cubicC cubicD at *
    have h0 := hd 0 (by omega)
    have h1 := hd 1 (by omega)
    have k0 := hm 0 (by omega)
    have k1 := hm 1 (by omega)
    obtain rfl | rfl | rfl : i = 0 ∨ i = 1 ∨ i = 2 := by omega
    · norm_num at row ⊢
      rw [k0]; linear_combination r * row
    · norm_num at row ⊢
      rw [h0, h1, k0, k1]; linear_combination a * r * row
    · norm_num at row ⊢
      rw [k1]; linear_combination r * row
  · by_cases i0 : i = 0
    · subst i0
      unfold cubicB cubicC cubicD at *
      simp only [if_neg h3, if_true, lt_irrefl, if_false, zero_add, if_pos (show 1 < n by omega), lit_two] at row ⊢
      rw [step2 x' 0, hd 0 (by omega), hd 1 (by omega), hm 0 (by omega), hm 1 (by omega)]
      rw [step2 x 0] at row
      have h0 : 0 < dx x 0 := hx.dx_pos (by omega)
      have h1 : 0 < dx x (0 + 1) := hx.dx_pos (by omega)
      simp only [zero_add] at *
      have h2 : dx x 0 + dx x 1 ≠ 0 := by positivity
      rw [← mul_add]
      rw [eq_div_iff h2] at row
      rw [eq_div_iff (by positivity)]
      linear_combination a ^ 2 * r * row
    · by_cases i1 : i = n - 1
      · obtain ⟨k, rfl⟩ : ∃ k, n = k + 4 := ⟨n - 4, by omega⟩
        subst i1
        unfold cubicA cubicB cubicD at *
        simp only [if_neg h3, show k + 4 - 1 = k + 3 by omega, show k + 4 - 3 = k + 1 by omega, show k + 4 - 2 = k + 2 by omega,
          if_neg (show ¬ k + 3 = 0 by omega), if_true, lt_irrefl, if_false, if_pos (show 0 < k + 3 by omega), lit_two,
          show k + 3 - 1 = k + 2 by omega, show k + 3 + 1 = k + 4 by omega] at row ⊢
        rw [step2 x' (k + 1), hd (k + 1) (by omega), hd (k + 2) (by omega), hm (k + 1) (by omega), hm (k + 2) (by omega)]
        rw [step2 x (k + 1)] at row
        have h0 : 0 < dx x (k + 1) := hx.dx_pos (by omega)
        have h1 : 0 < dx x (k + 2) := hx.dx_pos (by omega)
        have e : k + 1 + 1 = k + 2 := rfl
        simp only [e] at *
        have h2 : dx x (k + 1) + dx x (k + 2) ≠ 0 := by positivity
        rw [← mul_add]
        rw [eq_div_iff h2] at row
        rw [eq_div_iff (by positivity)]
        linear_combination a ^ 2 * r * row
      · unfold cubicA cubicB cubicC cubicD at *
        simp only [if_neg h3, if_neg i0, if_neg i1, if_pos (show 0 < i by omega), if_pos (show i + 1 < n by omega), lit_two, lit_three] at row ⊢
        rw [hd i (by omega), hd (i - 1) (by omega), hm i (by omega), hm (i - 1) (by omega)]
        linear_combination a * r * row

theorem solves_rev {a b c d a' b' c' d' : ℕ → K} {n : ℕ} {x : ℕ → K} (hb : ∀ i < n, b' i = b (n - 1 - i))
    (ha : ∀ i < n, 0 < i → a' i = c (n - 1 - i)) (hc : ∀ i, i + 1 < n → c' i = a (n - 1 - i)) (hd : ∀ i < n, d' i = -d (n - 1 - i))
    (h : SolvesTridiagonal a b c d n x) : SolvesTridiagonal a' b' c' d' n (fun i => -x (n - 1 - i)) := by
  intro i hi
  have := h (n - 1 - i) (by omega)
  rw [hd i hi, ← this, hb i hi]
  have e1 : (if 0 < i then a' i * -x (n - 1 - (i - 1)) else 0) =
      -(if n - 1 - i + 1 < n then c (n - 1 - i) * x (n - 1 - i + 1) else 0) := by
    by_cases h0 : 0 < i
    · rw [if_pos h0, if_pos (by omega), ha i hi h0, show n - 1 - (i - 1) = n - 1 - i + 1 by omega]; ring
    · rw [if_neg h0, if_neg (by omega), neg_zero]
  have e2 : (if i + 1 < n then c' i * -x (n - 1 - (i + 1)) else 0) = -(if 0 < n - 1 - i then a (n - 1 - i) * x (n - 1 - i - 1) else 0) := by
    by_cases h0 : i + 1 < n
    · rw [if_pos h0, if_pos (by omega), hc i h0, show n - 1 - (i + 1) = n - 1 - i - 1 by omega]; ring
    · rw [if_neg h0, if_neg (by omega), neg_zero]
  simp only
  rw [e1, e2]
  ring

theorem cubicSlopes_rev {n : Nat} {x y x' y' : Nat → K} (h : Rev n x y x' y') (hn : 3 ≤ n) {s s' : List K}
    (hs : cubicSlopes x y n = .ok s) (hs' : cubicSlopes x' y' n = .ok s') (i : Nat) (hi : i < n) :
    entry s' i = -entry s (n - 1 - i) := by
  refine cubicSlopes_unique hs' (z := fun i => -entry s (n - 1 - i)) ?_ i hi
  obtain ⟨-, hsol⟩ := cubicSlopes_solves hs
  have hd : ∀ i, i + 1 < n → dx x' i = dx x (n - 2 - i) := fun i hi => (h i hi).1
  have hm : ∀ i, i + 1 < n → secant x' y' i = -secant x y (n - 2 - i) := fun i hi => (h i hi).2
  refine solves_rev ?_ ?_ ?_ ?_ hsol
  · intro i hi
    unfold cubicB
    by_cases h3 : n = 3
    · subst h3
      obtain rfl | rfl | rfl : i = 0 ∨ i = 1 ∨ i = 2 := by omega
      · norm_num
      · norm_num
        rw [hd 0 (by omega), hd 1 (by omega), add_comm]
      · norm_num
    · rw [if_neg h3, if_neg h3]
      by_cases i0 : i = 0
      · subst i0
        rw [if_pos rfl, if_neg (by omega), if_pos (by omega), hd 1 (by omega), show n - 2 - 1 = n - 3 by omega]
      · by_cases i1 : i = n - 1
        · rw [if_neg i0, if_pos i1, if_pos (by omega), hd (n - 3) (by omega), show n - 2 - (n - 3) = 1 by omega]
        · rw [if_neg i0, if_neg i1, if_neg (by omega), if_neg (by omega), hd (i - 1) (by omega), hd i (by omega), add_comm (dx x _),
            show n - 2 - i = n - 1 - i - 1 by omega, show n - 2 - (i - 1) = n - 1 - i by omega]
  · intro i hi h0
    unfold cubicA cubicC
    by_cases h3 : n = 3
    · subst h3
      obtain rfl | rfl : i = 1 ∨ i = 2 := by omega
      · norm_num
        rw [hd 1 (by omega)]
      · norm_num
    · rw [if_neg h3, if_neg h3]
      by_cases i1 : i = n - 1
      · rw [if_pos i1, if_pos (by omega), show n - 1 = n - 3 + 2 by omega, step2, step2, hd (n - 3) (by omega), hd (n - 3 + 1) (by omega),
          show n - 2 - (n - 3) = 1 by omega, show n - 2 - (n - 3 + 1) = 0 by omega, add_comm]
      · rw [if_neg i1, if_neg (by omega), hd i (by omega), show n - 2 - i = n - 1 - i - 1 by omega]
  · intro i hi
    unfold cubicA cubicC
    by_cases h3 : n = 3
    · subst h3
      obtain rfl | rfl : i = 0 ∨ i = 1 := by omega
      · norm_num
      · norm_num
        rw [hd 0 (by omega)]
    · rw [if_neg h3, if_neg h3]
      by_cases i0 : i = 0
      · subst i0
        rw [if_pos rfl, if_pos (by omega), show n - 1 = n - 3 + 2 by omega, step2, step2, hd 0 (by omega), hd (0 + 1) (by omega),
          show n - 2 - 0 = n - 3 + 1 by omega, show n - 2 - (0 + 1) = n - 3 by omega, add_comm]
      · rw [if_neg i0, if_neg (by omega), hd (i - 1) (by omega), show n - 2 - (i - 1) = n - 1 - i by omega]
  · intro i hi
    unfold cubicD
    simp only
    by_cases h3 : n = 3
    · subst h3
      obtain rfl | rfl | rfl : i = 0 ∨ i = 1 ∨ i = 2 := by omega
      · norm_num
        rw [hm 0 (by omega)]; norm_num
      · norm_num
        rw [hd 0 (by omega), hd 1 (by omega), hm 0 (by omega), hm 1 (by omega)]
        norm_num
        ring
      · norm_num
        rw [hm 1 (by omega)]; norm_num
    · rw [if_neg h3, if_neg h3]
      by_cases i0 : i = 0
      · subst i0
        rw [if_pos rfl, if_neg (by omega), if_pos (by omega), show n - 1 = n - 3 + 2 by omega, step2, step2, hd 0 (by omega), hd (0 + 1) (by omega),
          hm 0 (by omega), hm 1 (by omega), show n - 2 - 0 = n - 2 by omega, show n - 2 - (0 + 1) = n - 3 by omega,
          show n - 3 + 1 = n - 2 by omega, ← neg_div]
        congr 1
        · ring
        · ring
      · by_cases i1 : i = n - 1
        · rw [if_neg i0, if_pos i1, if_pos (by omega), show n - 1 = n - 3 + 2 by omega, step2, step2, hd (n - 3) (by omega),
            hd (n - 3 + 1) (by omega), hm (n - 2) (by omega), hm (n - 3) (by omega), hd (n - 2) (by omega),
            show n - 2 - (n - 3) = 1 by omega, show n - 2 - (n - 3 + 1) = 0 by omega, show n - 2 - (n - 2) = 0 by omega, ← neg_div]
          simp only [zero_add]
          congr 1
          · ring
          · ring
        · rw [if_neg i0, if_neg i1, if_neg (by omega), if_neg (by omega), hd (i - 1) (by omega), hd i (by omega), hm (i - 1) (by omega),
            hm i (by omega), show n - 2 - i = n - 1 - i - 1 by omega, show n - 2 - (i - 1) = n - 1 - i by omega]
          ring

/-! ### Values -/

theorem interval_le (x : Nat → K) (t : K) (k : Nat) : interval x t k ≤ k := by
  induction k with
  | zero => simp [interval]
  | succ k ih => unfold interval; split <;> omega

theorem interval_scaled {n : Nat} {a e : K} {x x' : Nat → K} (ha : 0 < a) (hx : ∀ i < n, x' i = a * x i + e) (t : K) (k : Nat) (hk : k < n) :
    interval x' (a * t + e) k = interval x t k := by
  induction k with
  | zero => rfl
  | succ k ih =>
    unfold interval
    rw [hx (k + 1) hk, ih (by omega)]
    have : a * x (k + 1) + e ≤ a * t + e ↔ x (k + 1) ≤ t := by
      rw [add_le_add_iff_right]; exact mul_le_mul_iff_right₀ ha
    simp only [this]

theorem cubicAt_scaled {n : Nat} {a e c b : K} {x y d x' y' d' : Nat → K} (ha : 0 < a) (hn : 2 ≤ n) (hI : Incr n x)
    (hx : ∀ i < n, x' i = a * x i + e) (hy : ∀ i < n, y' i = c * y i + b) (hd : ∀ i < n, d' i = c / a * d i) (t : K) :
    cubicAt x' y' d' n (a * t + e) = c * cubicAt x y d n t + b := by
  unfold cubicAt
  rw [interval_scaled ha hx t (n - 2) (by omega)]
  have hk := interval_le x t (n - 2)
  generalize interval x t (n - 2) = k at *
  have hp : 0 < dx x k := hI.dx_pos (by omega)
  have h1 : dx x' k = a * dx x k := by unfold dx; rw [hx k (by omega), hx (k + 1) (by omega)]; ring
  rw [piece_eq, piece_eq]
  unfold secant
  rw [h1, hx k (by omega), hy k (by omega), hy (k + 1) (by omega), hd k (by omega), hd (k + 1) (by omega)]
  generalize dx x k = h at *
  field_simp
  ring

theorem linearAt_scaled {n : Nat} {a e c b : K} {x y x' y' : Nat → K} (ha : 0 < a) (hn : 2 ≤ n) (hI : Incr n x)
    (hx : ∀ i < n, x' i = a * x i + e) (hy : ∀ i < n, y' i = c * y i + b) (t : K) :
    linearAt x' y' n (a * t + e) = c * linearAt x y n t + b := by
  unfold linearAt
  simp only
  rw [interval_scaled ha hx t (n - 2) (by omega)]
  have hk := interval_le x t (n - 2)
  generalize interval x t (n - 2) = k at *
  have hp : 0 < dx x k := hI.dx_pos (by omega)
  have h1 : dx x' k = a * dx x k := by unfold dx; rw [hx k (by omega), hx (k + 1) (by omega)]; ring
  unfold secant
  rw [h1, hx k (by omega), hy k (by omega), hy (k + 1) (by omega)]
  generalize dx x k = h at *
  field_simp
  ring

theorem incr_rev {n : Nat} {c : K} {x x' : Nat → K} (hI : Incr n x) (hx : ∀ i < n, x' i = c - x (n - 1 - i)) : Incr n x' := by
  intro i hi
  rw [hx i (by omega), hx (i + 1) hi]
  have := hI (n - 1 - (i + 1)) (by omega)
  rw [show n - 1 - (i + 1) + 1 = n - 1 - i by omega] at this
  linarith

theorem incr_scaled {n : Nat} {a e : K} {x x' : Nat → K} (ha : 0 < a) (hI : Incr n x) (hx : ∀ i < n, x' i = a * x i + e) : Incr n x' := by
  intro i hi
  rw [hx i (by omega), hx (i + 1) hi]
  have := mul_lt_mul_of_pos_left (hI i hi) ha
  linarith

theorem cubicAt_rev {n : Nat} {c : K} {x y d x' y' d' : Nat → K} (hn : 2 ≤ n) (hI : Incr n x) (hx : ∀ i < n, x' i = c - x (n - 1 - i))
    (hy : ∀ i < n, y' i = y (n - 1 - i)) (hd : ∀ i < n, d' i = -d (n - 1 - i)) (t : K) (h1 : x 0 ≤ t) (h2 : t ≤ x (n - 1)) :
    cubicAt x' y' d' n (c - t) = cubicAt x y d n t := by
  obtain ⟨i, hi, h3, h4⟩ := exists_interval x n t hn h1 h2
  rw [cubicAt_eq x y d n t hI i hi h3 h4]
  have e1 : n - 1 - (n - 2 - i) = i + 1 := by omega
  have e2 : n - 1 - (n - 2 - i + 1) = i := by omega
  rw [cubicAt_eq x' y' d' n (c - t) (incr_rev hI hx) (n - 2 - i) (by omega)
    (by rw [hx _ (by omega), e1]; linarith) (by rw [hx _ (by omega), e2]; linarith)]
  have hp : 0 < dx x i := hI.dx_pos hi
  have h5 : dx x' (n - 2 - i) = dx x i := by unfold dx; rw [hx _ (by omega), hx _ (by omega), e1, e2]; ring
  rw [piece_eq, piece_eq]
  unfold secant
  rw [h5, hx _ (by omega), hy _ (by omega), hy _ (by omega), hd _ (by omega), hd _ (by omega), e1, e2]
  have h6 : x (i + 1) = x i + dx x i := by unfold dx; ring
  rw [h6]
  generalize dx x i = h at *
  field_simp
  ring

theorem linearAt_rev {n : Nat} {c : K} {x y x' y' : Nat → K} (hn : 2 ≤ n) (hI : Incr n x) (hx : ∀ i < n, x' i = c - x (n - 1 - i))
    (hy : ∀ i < n, y' i = y (n - 1 - i)) (t : K) (h1 : x 0 ≤ t) (h2 : t ≤ x (n - 1)) :
    linearAt x' y' n (c - t) = linearAt x y n t := by
  obtain ⟨i, hi, h3, h4⟩ := exists_interval x n t hn h1 h2
  rw [linearAt_eq x y n t hI i hi h3 h4]
  have e1 : n - 1 - (n - 2 - i) = i + 1 := by omega
  have e2 : n - 1 - (n - 2 - i + 1) = i := by omega
  rw [linearAt_eq x' y' n (c - t) (incr_rev hI hx) (n - 2 - i) (by omega)
    (by rw [hx _ (by omega), e1]; linarith) (by rw [hx _ (by omega), e2]; linarith)]
  have hp : 0 < dx x i := hI.dx_pos hi
  have h5 : dx x' (n - 2 - i) = dx x i := by unfold dx; rw [hx _ (by omega), hx _ (by omega), e1, e2]; ring
  unfold secant
  rw [h5, hx _ (by omega), hy _ (by omega), hy _ (by omega), e1, e2]
  have h6 : x (i + 1) = x i + dx x i := by unfold dx; ring
  rw [h6]
  generalize dx x i = h at *
  field_simp
  ring

end Scipy
end PyEMD
