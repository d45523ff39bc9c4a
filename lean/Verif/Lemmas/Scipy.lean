import Verif.Model.Scipy
import Verif.Spec.Scipy
import Verif.Spec.Contract
import Verif.Spec.Affine
import Verif.Spec.Reversal
import Verif.Lemmas.Exact
import Verif.Props.Compact
import Mathlib.Tactic.FieldSimp
import Mathlib.Tactic.Linarith
import Mathlib.Tactic.Ring

/-!
# Lemmas on the interpolators
-/

set_option linter.unusedSectionVars false

namespace PyEMD
namespace Scipy

variable {K : Type} [Field K] [LinearOrder K] [IsStrictOrderedRing K] [FloorRing K]

/-! ### Knots -/

theorem all_adjacent (X : List K) : (X.zip X.tail).all (fun p => decide (p.1 < p.2)) = true ↔ X.Pairwise (· < ·) := by
  induction X with
  | nil => simp
  | cons a X ih =>
    cases X with
    | nil => simp
    | cons b X =>
      simp only [List.tail_cons, List.zip_cons_cons, List.all_cons, Bool.and_eq_true, decide_eq_true_eq] at ih ⊢
      rw [ih, List.pairwise_cons (a := a)]
      constructor
      · rintro ⟨h1, h2⟩
        refine ⟨?_, h2⟩
        intro c hc
        rcases List.mem_cons.1 hc with rfl | hc
        · exact h1
        · exact h1.trans ((List.pairwise_cons.1 h2).1 c hc)
      · rintro ⟨h1, h2⟩
        exact ⟨h1 b (by simp), h2⟩

theorem refuses_iff (least : Nat) (X Y : List K) :
    refuses least X Y = false ↔ least ≤ X.length ∧ X.length = Y.length ∧ X.Pairwise (· < ·) := by
  rw [← all_adjacent]
  simp only [refuses, Bool.or_eq_false_iff, decide_eq_false_iff_not, not_lt, bne_eq_false_iff_eq, Bool.not_eq_false', and_assoc]

/-- The first `n` values increase. -/
def Incr (n : Nat) (x : Nat → K) : Prop := ∀ i, i + 1 < n → x i < x (i + 1)

theorem entry_eq (X : List K) (i : Nat) (h : i < X.length) : entry X i = X[i] := by
  simp [entry, List.getD, h]

theorem incr_entry {X : List K} (h : X.Pairwise (· < ·)) : Incr X.length (entry X) := by
  intro i hi
  rw [entry_eq X i (by omega), entry_eq X (i + 1) hi]
  exact List.pairwise_iff_getElem.1 h i (i + 1) (by omega) hi (by omega)

theorem Incr.lt {n : Nat} {x : Nat → K} (h : Incr n x) {i j : Nat} (hij : i < j) (hj : j < n) : x i < x j := by
  induction j with
  | zero => omega
  | succ j ih =>
    rcases Nat.lt_succ_iff_lt_or_eq.1 hij with h1 | rfl
    · exact (ih h1 (by omega)).trans (h j hj)
    · exact h i hj

theorem Incr.dx_pos {n : Nat} {x : Nat → K} (h : Incr n x) {i : Nat} (hi : i + 1 < n) : 0 < dx x i := by
  unfold dx; linarith [h i hi]

/-! ### Pieces -/

theorem piece_eq (x y d : Nat → K) (i : Nat) (t : K) :
    piece x y d i t = (((d i + d (i + 1) - 2 * secant x y i) / dx x i / dx x i * (t - x i) +
      ((secant x y i - d i) / dx x i - (d i + d (i + 1) - 2 * secant x y i) / dx x i)) * (t - x i) + d i) * (t - x i) + y i := by
  unfold piece
  simp only [lit_two]

theorem piece_left (x y d : Nat → K) (i : Nat) : piece x y d i (x i) = y i := by
  rw [piece_eq]; ring

theorem piece_right (x y d : Nat → K) (i : Nat) (h : dx x i ≠ 0) : piece x y d i (x (i + 1)) = y (i + 1) := by
  rw [piece_eq]
  have hd : x (i + 1) - x i = dx x i := rfl
  rw [hd, secant]
  field_simp
  ring

theorem interval_spec (x : Nat → K) (t : K) (n : Nat) (hx : Incr n x) (k i : Nat) (hk : k + 1 < n) (hi : i ≤ k)
    (h1 : x i ≤ t) (h2 : t ≤ x (i + 1)) : interval x t k = i ∨ (t = x (i + 1) ∧ interval x t k = i + 1 ∧ i + 1 ≤ k) := by
  induction k with
  | zero => left; unfold interval; omega
  | succ k ih =>
    unfold interval
    by_cases hik : i = k + 1
    · subst hik
      rw [if_pos h1]; left; rfl
    · by_cases h3 : x (k + 1) ≤ t
      · rw [if_pos h3]
        have h4 : k = i := by
          by_contra hne
          have := hx.lt (i := i + 1) (j := k + 1) (by omega) (by omega)
          linarith
        subst h4
        right
        exact ⟨le_antisymm h2 h3, rfl, by omega⟩
      · rw [if_neg h3]
        rcases ih (by omega) (by omega) with h | ⟨ha, hb, hc⟩
        · exact Or.inl h
        · exact Or.inr ⟨ha, hb, by omega⟩

theorem cubicAt_eq (x y d : Nat → K) (n : Nat) (t : K) (hx : Incr n x) (i : Nat) (hi : i + 1 < n) (h1 : x i ≤ t) (h2 : t ≤ x (i + 1)) :
    cubicAt x y d n t = piece x y d i t := by
  unfold cubicAt
  rcases interval_spec x t n hx (n - 2) i (by omega) (by omega) h1 h2 with h | ⟨rfl, h, -⟩
  · rw [h]
  · rw [h, piece_left, piece_right _ _ _ _ (hx.dx_pos hi).ne']

theorem linearAt_eq (x y : Nat → K) (n : Nat) (t : K) (hx : Incr n x) (i : Nat) (hi : i + 1 < n) (h1 : x i ≤ t) (h2 : t ≤ x (i + 1)) :
    linearAt x y n t = secant x y i * (t - x i) + y i := by
  unfold linearAt
  simp only
  rcases interval_spec x t n hx (n - 2) i (by omega) (by omega) h1 h2 with h | ⟨rfl, h, -⟩
  · rw [h]
  · have := (hx.dx_pos hi).ne'
    rw [h, sub_self, mul_zero, zero_add, secant]
    have hd : x (i + 1) - x i = dx x i := rfl
    rw [hd]
    field_simp
    ring

/-- A point between the first and the last knot is between two neighbouring ones. -/
theorem exists_interval (x : Nat → K) (n : Nat) (t : K) (hn : 2 ≤ n) (h1 : x 0 ≤ t) (h2 : t ≤ x (n - 1)) :
    ∃ i, i + 1 < n ∧ x i ≤ t ∧ t ≤ x (i + 1) := by
  by_contra hne
  have : ∀ i, i < n → x i ≤ t ∧ (0 < i → x i < t) := by
    intro i
    induction i with
    | zero => intro _; exact ⟨h1, fun h => absurd h (by omega)⟩
    | succ i ih =>
      intro hi
      have h3 := (ih (by omega)).1
      by_cases h4 : t ≤ x (i + 1)
      · exact absurd ⟨i, hi, h3, h4⟩ hne
      · exact ⟨(not_le.1 h4).le, fun _ => not_le.1 h4⟩
  have := (this (n - 1) (by omega)).2 (by omega)
  linarith

end Scipy
end PyEMD
