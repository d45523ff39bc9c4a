import Verif.Lemmas.ScipyRules

/-!
# The cubic spline is the not-a-knot spline
-/

set_option linter.unusedSectionVars false

namespace PyEMD
namespace Scipy
open PyEMD.Spec
open _root_.Spec (SolvesTridiagonal)

variable {K : Type} [Field K] [LinearOrder K] [IsStrictOrderedRing K] [FloorRing K]

/-- The cubic with given value, slope and higher coefficients around `a`. -/
def around (a c0 c1 c2 c3 : K) : Cubic K where
  c0 := c0 - c1 * a + c2 * a ^ 2 - c3 * a ^ 3
  c1 := c1 - 2 * c2 * a + 3 * c3 * a ^ 2
  c2 := c2 - 3 * c3 * a
  c3 := c3

theorem around_val (a c0 c1 c2 c3 t : K) :
    (around a c0 c1 c2 c3).val t = c0 + c1 * (t - a) + c2 * (t - a) ^ 2 + c3 * (t - a) ^ 3 := by
  simp only [around, Cubic.val]; ring

theorem around_d1 (a c0 c1 c2 c3 t : K) :
    (around a c0 c1 c2 c3).d1 t = c1 + 2 * c2 * (t - a) + 3 * c3 * (t - a) ^ 2 := by
  simp only [around, Cubic.d1]; ring

theorem around_d2 (a c0 c1 c2 c3 t : K) : (around a c0 c1 c2 c3).d2 t = 2 * c2 + 6 * c3 * (t - a) := by
  simp only [around, Cubic.d2]; ring

/-- Piece `i` as a cubic. -/
def pieceCubic (x y d : Nat → K) (i : Nat) : Cubic K :=
  around (x i) (y i) (d i) ((3 * secant x y i - 2 * d i - d (i + 1)) / dx x i)
    ((d i + d (i + 1) - 2 * secant x y i) / (dx x i * dx x i))

theorem pieceCubic_val (x y d : Nat → K) (i : Nat) (t : K) (h : dx x i ≠ 0) : (pieceCubic x y d i).val t = piece x y d i t := by
  rw [pieceCubic, around_val, piece_eq]
  field_simp
  ring

/-- A cubic is determined by values and slopes at two points. -/
theorem cubic_hermite_unique (p : Cubic K) (x y d : Nat → K) (i : Nat) (h : dx x i ≠ 0) (v0 : p.val (x i) = y i)
    (v1 : p.val (x (i + 1)) = y (i + 1)) (s0 : p.d1 (x i) = d i) (s1 : p.d1 (x (i + 1)) = d (i + 1)) :
    p = pieceCubic x y d i := by
  have hx : x (i + 1) = x i + dx x i := by unfold dx; ring
  have hm : secant x y i * dx x i = y (i + 1) - y i := by unfold secant; field_simp
  simp only [Cubic.val, Cubic.d1, hx] at v0 v1 s0 s1
  have e3 : p.c3 = (d i + d (i + 1) - 2 * secant x y i) / (dx x i * dx x i) := by
    rw [eq_div_iff (mul_ne_zero h h)]
    apply mul_right_cancel₀ h
    linear_combination 2 * hm + 2 * v0 - 2 * v1 + (dx x i) * s0 + (dx x i) * s1
  have e2 : p.c2 + 3 * p.c3 * x i = (3 * secant x y i - 2 * d i - d (i + 1)) / dx x i := by
    rw [eq_div_iff h]
    apply mul_right_cancel₀ h
    linear_combination -3 * hm - 3 * v0 + 3 * v1 - 2 * (dx x i) * s0 - (dx x i) * s1
  cases p with
  | mk c0 c1 c2 c3 =>
    simp only [] at *
    unfold pieceCubic around
    rw [← e3, ← e2]
    congr 1
    · linear_combination v0 - x i * s0
    · linear_combination s0
    · ring

theorem pieceCubic_d1_left (x y d : Nat → K) (i : Nat) : (pieceCubic x y d i).d1 (x i) = d i := by
  rw [pieceCubic, around_d1]; ring

theorem pieceCubic_d1_right (x y d : Nat → K) (i : Nat) (h : dx x i ≠ 0) : (pieceCubic x y d i).d1 (x (i + 1)) = d (i + 1) := by
  rw [pieceCubic, around_d1, show x (i + 1) - x i = dx x i from rfl]
  field_simp
  ring

theorem pieceCubic_d2_left (x y d : Nat → K) (i : Nat) :
    (pieceCubic x y d i).d2 (x i) = 2 * ((3 * secant x y i - 2 * d i - d (i + 1)) / dx x i) := by
  rw [pieceCubic, around_d2]; ring

theorem pieceCubic_d2_right (x y d : Nat → K) (i : Nat) (h : dx x i ≠ 0) :
    (pieceCubic x y d i).d2 (x (i + 1)) = 2 * ((d i + 2 * d (i + 1) - 3 * secant x y i) / dx x i) := by
  rw [pieceCubic, around_d2, show x (i + 1) - x i = dx x i from rfl]
  field_simp
  ring

/-- Continuity of the second derivative is the equation between three slopes. -/
theorem smooth2_iff (x y d : Nat → K) (i : Nat) (h0 : dx x i ≠ 0) (h1 : dx x (i + 1) ≠ 0) :
    (pieceCubic x y d i).d2 (x (i + 1)) = (pieceCubic x y d (i + 1)).d2 (x (i + 1)) ↔
      dx x (i + 1) * d i + 2 * (dx x i + dx x (i + 1)) * d (i + 1) + dx x i * d (i + 2) =
        3 * (dx x (i + 1) * secant x y i + dx x i * secant x y (i + 1)) := by
  rw [pieceCubic_d2_right x y d i h0, pieceCubic_d2_left, mul_right_inj' two_ne_zero, div_eq_div_iff h0 h1,
    show i + 1 + 1 = i + 2 from rfl]
  constructor <;> intro h <;> linear_combination h

theorem pieceCubic_c3 (x y d : Nat → K) (i : Nat) :
    (pieceCubic x y d i).c3 = (d i + d (i + 1) - 2 * secant x y i) / (dx x i * dx x i) := rfl

/-- The not-a-knot condition is the equation between two slopes, given the equation between three slopes. -/
theorem first_iff {h0 h1 m0 m1 d0 d1 d2 : K} (p0 : 0 < h0) (p1 : 0 < h1)
    (row : h1 * d0 + 2 * (h0 + h1) * d1 + h0 * d2 = 3 * (h1 * m0 + h0 * m1)) :
    (d0 + d1 - 2 * m0) / (h0 * h0) = (d1 + d2 - 2 * m1) / (h1 * h1) ↔
      h1 * d0 + (h0 + h1) * d1 = ((h0 + 2 * (h0 + h1)) * h1 * m0 + h0 * h0 * m1) / (h0 + h1) := by
  have p : 0 < h0 + h1 := by linarith
  have e : d2 = (3 * (h1 * m0 + h0 * m1) - h1 * d0 - 2 * (h0 + h1) * d1) / h0 := by
    rw [eq_div_iff p0.ne']; linear_combination row
  rw [e, div_eq_div_iff (by positivity) (by positivity), eq_div_iff p.ne']
  constructor
  · intro h
    field_simp at h
    linear_combination h
  · intro h
    field_simp
    linear_combination h

/-- The equations for the slopes say that the pieces form the not-a-knot spline. -/
theorem notAKnot_iff {n : Nat} {x y d : Nat → K} (hx : Incr n x) (hn : 4 ≤ n) :
    SolvesTridiagonal (cubicA x n) (cubicB x n) (cubicC x n) (cubicD x y n) n d ↔ NotAKnot n x y (pieceCubic x y d) := by
  have h3 : ¬ n = 3 := by omega
  have mid : ∀ i, 0 < i → i + 1 < n →
      ((if 0 < i then cubicA x n i * d (i - 1) else 0) + cubicB x n i * d i + (if i + 1 < n then cubicC x n i * d (i + 1) else 0) =
        cubicD x y n i ↔
      dx x i * d (i - 1) + 2 * (dx x (i - 1) + dx x i) * d i + dx x (i - 1) * d (i + 1) =
        3 * (dx x i * secant x y (i - 1) + dx x (i - 1) * secant x y i)) := by
    intro i i0 i1
    unfold cubicA cubicB cubicC cubicD
    simp only [if_neg h3, if_neg (show ¬ i = 0 by omega), if_neg (show ¬ i = n - 1 by omega), if_pos i0, if_pos i1, lit_two, lit_three]
  have first : ((if 0 < 0 then cubicA x n 0 * d (0 - 1) else 0) + cubicB x n 0 * d 0 + (if 0 + 1 < n then cubicC x n 0 * d (0 + 1) else 0) =
        cubicD x y n 0 ↔
      dx x 1 * d 0 + (dx x 0 + dx x 1) * d 1 =
        ((dx x 0 + 2 * (dx x 0 + dx x 1)) * dx x 1 * secant x y 0 + dx x 0 * dx x 0 * secant x y 1) / (dx x 0 + dx x 1)) := by
    have e := step2 x 0
    simp only [zero_add] at e
    unfold cubicA cubicB cubicC cubicD
    simp only [if_neg h3, e, lit_two, if_true, zero_add, show 1 < n by omega, lt_irrefl, if_false]
  have last : ((if 0 < n - 1 then cubicA x n (n - 1) * d (n - 1 - 1) else 0) + cubicB x n (n - 1) * d (n - 1) +
        (if n - 1 + 1 < n then cubicC x n (n - 1) * d (n - 1 + 1) else 0) = cubicD x y n (n - 1) ↔
      dx x (n - 3) * d (n - 1) + (dx x (n - 2) + dx x (n - 3)) * d (n - 2) =
        ((dx x (n - 2) + 2 * (dx x (n - 2) + dx x (n - 3))) * dx x (n - 3) * secant x y (n - 2) +
          dx x (n - 2) * dx x (n - 2) * secant x y (n - 3)) / (dx x (n - 2) + dx x (n - 3))) := by
    have e := step2 x (n - 3)
    rw [show n - 3 + 2 = n - 1 by omega, show n - 3 + 1 = n - 2 by omega] at e
    unfold cubicA cubicB cubicC cubicD
    simp only [if_neg h3, e, lit_two, if_true, show ¬ n - 1 + 1 < n by omega, show ¬ n - 1 = 0 by omega, show 0 < n - 1 by omega, if_false,
      show n - 1 - 1 = n - 2 by omega]
    rw [add_comm (dx x (n - 3)) (dx x (n - 2))]
    have e1 : (dx x (n - 2) * dx x (n - 2) * secant x y (n - 3) +
          (2 * (dx x (n - 2) + dx x (n - 3)) + dx x (n - 2)) * dx x (n - 3) * secant x y (n - 2)) =
        ((dx x (n - 2) + 2 * (dx x (n - 2) + dx x (n - 3))) * dx x (n - 3) * secant x y (n - 2) +
          dx x (n - 2) * dx x (n - 2) * secant x y (n - 3)) := by ring
    rw [e1]
    constructor <;> intro h <;> linear_combination h
  have p := fun i (hi : i + 1 < n) => hx.dx_pos hi
  have sm : ∀ i, i + 2 < n →
      ((pieceCubic x y d i).d2 (x (i + 1)) = (pieceCubic x y d (i + 1)).d2 (x (i + 1)) ↔
        dx x (i + 1) * d i + 2 * (dx x i + dx x (i + 1)) * d (i + 1) + dx x i * d (i + 2) =
          3 * (dx x (i + 1) * secant x y i + dx x i * secant x y (i + 1))) :=
    fun i hi => smooth2_iff x y d i (p i (by omega)).ne' (p (i + 1) (by omega)).ne'
  constructor
  · intro h
    have rows : ∀ i, i + 2 < n → dx x (i + 1) * d i + 2 * (dx x i + dx x (i + 1)) * d (i + 1) + dx x i * d (i + 2) =
          3 * (dx x (i + 1) * secant x y i + dx x i * secant x y (i + 1)) := fun i hi =>
      (mid (i + 1) (by omega) (by omega)).1 (h (i + 1) (by omega))
    refine ⟨?_, ?_, ?_, ?_, ?_, ?_⟩
    · intro i hi; rw [pieceCubic_val _ _ _ _ _ (p i (by omega)).ne', piece_left]
    · intro i hi; rw [pieceCubic_val _ _ _ _ _ (p i (by omega)).ne', piece_right _ _ _ _ (p i (by omega)).ne']
    · intro i hi; rw [pieceCubic_d1_right _ _ _ _ (p i (by omega)).ne', pieceCubic_d1_left]
    · intro i hi; exact (sm i (by omega)).2 (rows i (by omega))
    · rw [pieceCubic_c3, pieceCubic_c3]
      exact (first_iff (p 0 (by omega)) (p 1 (by omega)) (rows 0 (by omega))).2 (first.1 (h 0 (by omega)))
    · rw [pieceCubic_c3, pieceCubic_c3]
      have r := rows (n - 3) (by omega)
      rw [show n - 3 + 1 = n - 2 by omega, show n - 3 + 2 = n - 1 by omega] at r
      have := (first_iff (p (n - 2) (by omega)) (p (n - 3) (by omega)) (d0 := d (n - 1)) (d1 := d (n - 2)) (d2 := d (n - 3))
        (m0 := secant x y (n - 2)) (m1 := secant x y (n - 3)) (by linear_combination r)).2 (last.1 (h (n - 1) (by omega)))
      rw [show n - 3 + 1 = n - 2 by omega, show n - 2 + 1 = n - 1 by omega, add_comm (d (n - 3)), add_comm (d (n - 2)) (d (n - 1))]
      exact this.symm
  · intro h
    have rows := fun i (hi : i + 2 < n) => (sm i hi).1 (h.smooth2 i (by omega))
    intro i hi
    by_cases i0 : i = 0
    · subst i0
      have f := h.first
      rw [pieceCubic_c3, pieceCubic_c3] at f
      exact first.2 ((first_iff (p 0 (by omega)) (p 1 (by omega)) (rows 0 (by omega))).1 f)
    · by_cases i1 : i = n - 1
      · subst i1
        have f := h.last
        rw [pieceCubic_c3, pieceCubic_c3] at f
        rw [show n - 3 + 1 = n - 2 by omega, show n - 2 + 1 = n - 1 by omega, add_comm (d (n - 3)), add_comm (d (n - 2)) (d (n - 1))] at f
        have r := rows (n - 3) (by omega)
        rw [show n - 3 + 1 = n - 2 by omega, show n - 3 + 2 = n - 1 by omega] at r
        exact last.2 ((first_iff (p (n - 2) (by omega)) (p (n - 3) (by omega)) (d0 := d (n - 1)) (d1 := d (n - 2)) (d2 := d (n - 3))
          (m0 := secant x y (n - 2)) (m1 := secant x y (n - 3)) (by linear_combination r)).1 f.symm)
      · obtain ⟨j, rfl⟩ : ∃ j, i = j + 1 := ⟨i - 1, by omega⟩
        exact (mid (j + 1) (by omega) (by omega)).2 (rows j (by omega))

/-- There is one not-a-knot spline: the pieces with the computed slopes. -/
theorem notAKnot_unique {n : Nat} {x y : Nat → K} (hx : Incr n x) (hn : 4 ≤ n) {s : List K} (hs : cubicSlopes x y n = .ok s)
    {p : Nat → Cubic K} (hp : NotAKnot n x y p) (i : Nat) (hi : i < n - 1) : p i = pieceCubic x y (entry s) i := by
  have ne := fun i (hi : i + 1 < n) => (hx.dx_pos hi).ne'
  let d : Nat → K := fun i => if i = n - 1 then (p (n - 2)).d1 (x (n - 1)) else (p i).d1 (x i)
  have dr : ∀ i, i < n - 1 → (p i).d1 (x (i + 1)) = d (i + 1) := by
    intro i hi
    by_cases h : i + 1 = n - 1
    · simp only [d, if_pos h]
      rw [show i = n - 2 by omega, show n - 2 + 1 = n - 1 by omega]
    · simp only [d, if_neg h]
      exact hp.smooth1 i (by omega)
  have dl : ∀ i, i < n - 1 → (p i).d1 (x i) = d i := by
    intro i hi
    simp only [d, if_neg (show ¬ i = n - 1 by omega)]
  have hpd : ∀ i, i < n - 1 → p i = pieceCubic x y d i := fun i hi =>
    cubic_hermite_unique (p i) x y d i (ne i (by omega)) (hp.left i hi) (hp.right i hi) (dl i hi) (dr i hi)
  have hd : NotAKnot n x y (pieceCubic x y d) := by
    refine ⟨?_, ?_, ?_, ?_, ?_, ?_⟩
    · intro i hi; rw [← hpd i hi]; exact hp.left i hi
    · intro i hi; rw [← hpd i hi]; exact hp.right i hi
    · intro i hi; rw [← hpd i (by omega), ← hpd (i + 1) (by omega)]; exact hp.smooth1 i hi
    · intro i hi; rw [← hpd i (by omega), ← hpd (i + 1) (by omega)]; exact hp.smooth2 i hi
    · rw [← hpd 0 (by omega), ← hpd 1 (by omega)]; exact hp.first
    · rw [← hpd (n - 3) (by omega), ← hpd (n - 2) (by omega)]; exact hp.last
  have hu := cubicSlopes_unique hs ((notAKnot_iff hx hn).2 hd)
  rw [hpd i hi]
  unfold pieceCubic
  rw [hu i (by omega), hu (i + 1) (by omega)]

end Scipy
end PyEMD
