import Verif.Lemmas.EmdLoop
import Mathlib.Algebra.BigOperators.Group.List.Basic
import Mathlib.Algebra.Order.BigOperators.Group.List
import Mathlib.Algebra.Order.Field.Rat
import Mathlib.Algebra.Order.Ring.Cast
import Mathlib.Data.Rat.Cast.Order
import Mathlib.Tactic.Ring
import Mathlib.Tactic.Linarith
import Mathlib.Tactic.NormNum
import Mathlib.Tactic.FieldSimp
import Mathlib.Tactic.Positivity

/-!
# Exact arithmetic: what the numpy primitives compute over an ordered field
-/

set_option linter.unusedSectionVars false

namespace PyEMD

variable {K : Type} [Field K] [LinearOrder K] [IsStrictOrderedRing K] [FloorRing K]

theorem lit_eq (q : ℚ) : (lit q : K) = (q : K) := rfl
@[simp] theorem lit_zero : (lit 0 : K) = 0 := by simp [lit_eq]
@[simp] theorem lit_one : (lit 1 : K) = 1 := by simp [lit_eq]
@[simp] theorem lit_two : (lit 2 : K) = 2 := by simp [lit_eq]
@[simp] theorem lit_three : (lit 3 : K) = 3 := by simp [lit_eq]
@[simp] theorem lit_half : (lit (1 / 2) : K) = 1 / 2 := by simp [lit_eq]
theorem lit_nat (n : ℕ) : (lit (n : ℚ) : K) = n := by simp [lit_eq]

theorem pyAbs_eq (x : K) : pyAbs x = |x| := by
  unfold pyAbs
  rw [lit_zero]
  split
  next h => rw [abs_of_neg h]
  next h => rw [abs_of_nonneg (not_lt.1 h)]

theorem npSum_eq (l : List K) : npSum l = l.sum := rfl

theorem foldl_max_ge (l : List K) (a : K) : a ≤ l.foldl max a ∧ ∀ x ∈ l, x ≤ l.foldl max a := by
  induction l generalizing a with
  | nil => simp
  | cons b l ih =>
    obtain ⟨h1, h2⟩ := ih (max a b)
    simp only [List.foldl_cons, List.mem_cons, forall_eq_or_imp]
    exact ⟨le_trans (le_max_left _ _) h1, le_trans (le_max_right _ _) h1, h2⟩

theorem foldl_max_mem (l : List K) (a : K) : l.foldl max a ∈ a :: l := by
  induction l generalizing a with
  | nil => simp
  | cons b l ih =>
    have := ih (max a b)
    simp only [List.foldl_cons, List.mem_cons] at this ⊢
    rcases this with h | h
    · rw [h]
      rcases max_choice a b with h | h <;> simp [h]
    · exact .inr (.inr h)

theorem foldl_min_le (l : List K) (a : K) : l.foldl min a ≤ a ∧ ∀ x ∈ l, l.foldl min a ≤ x := by
  induction l generalizing a with
  | nil => simp
  | cons b l ih =>
    obtain ⟨h1, h2⟩ := ih (min a b)
    simp only [List.foldl_cons, List.mem_cons, forall_eq_or_imp]
    exact ⟨le_trans h1 (min_le_left _ _), le_trans h1 (min_le_right _ _), h2⟩

theorem foldl_min_mem (l : List K) (a : K) : l.foldl min a ∈ a :: l := by
  induction l generalizing a with
  | nil => simp
  | cons b l ih =>
    have := ih (min a b)
    simp only [List.foldl_cons, List.mem_cons] at this ⊢
    rcases this with h | h
    · rw [h]
      rcases min_choice a b with h | h <;> simp [h]
    · exact .inr (.inr h)

theorem npMax_spec {l : List K} (h : l ≠ []) : npMax l ∈ l ∧ ∀ x ∈ l, x ≤ npMax l := by
  cases l with
  | nil => exact absurd rfl h
  | cons a l =>
    exact ⟨foldl_max_mem l a, fun x hx => (List.mem_cons.1 hx).elim (fun h => h ▸ (foldl_max_ge l a).1) ((foldl_max_ge l a).2 x)⟩

theorem npMin_spec {l : List K} (h : l ≠ []) : npMin l ∈ l ∧ ∀ x ∈ l, npMin l ≤ x := by
  cases l with
  | nil => exact absurd rfl h
  | cons a l =>
    exact ⟨foldl_min_mem l a, fun x hx => (List.mem_cons.1 hx).elim (fun h => h ▸ (foldl_min_le l a).1) ((foldl_min_le l a).2 x)⟩

theorem pyMax_eq {l : List K} (h : l ≠ []) : pyMax l = .ok (npMax l) := by
  cases l with
  | nil => exact absurd rfl h
  | cons a l =>
    show Except.ok (l.foldl (fun m y => if m < y then y else m) a) = Except.ok (l.foldl max a)
    congr 2
    funext m y
    split
    next h => rw [max_eq_right h.le]
    next h => rw [max_eq_left (not_lt.1 h)]

theorem pyMin_eq {l : List K} (h : l ≠ []) : pyMin l = .ok (npMin l) := by
  cases l with
  | nil => exact absurd rfl h
  | cons a l =>
    show Except.ok (l.foldl (fun m y => if y < m then y else m) a) = Except.ok (l.foldl min a)
    congr 2
    funext m y
    split
    next h => rw [min_eq_right h.le]
    next h => rw [min_eq_left (not_lt.1 h)]

theorem npMin_map_mul (c : K) (hc : 0 < c) (l : List K) : npMin (l.map (c * ·)) = c * npMin l := by
  cases l with
  | nil => simp [npMin]
  | cons a l =>
    show (l.map (c * ·)).foldl min (c * a) = c * l.foldl min a
    induction l generalizing a with
    | nil => rfl
    | cons b l ih =>
      simp only [List.map_cons, List.foldl_cons]
      rw [← mul_min_of_nonneg _ _ hc.le]
      exact ih _

theorem foldl_add_eq_sum (l : List K) (a : K) : l.foldl (· + ·) a = a + l.sum := by
  induction l generalizing a with
  | nil => simp
  | cons b l ih => simp [ih, add_assoc]

theorem colSum_eq (rows : List (List K)) (i : Nat) :
    EMD.Spec.colSum rows i = (rows.map (fun r => r.getD i 0)).sum := by
  simp [EMD.Spec.colSum, foldl_add_eq_sum]

theorem npDiff_length {β : Type} [Sub β] (l : List β) : (npDiff l).length = l.length - 1 := by
  simp [npDiff]

theorem npDiff_getElem {β : Type} [Sub β] (l : List β) (i : Nat) (h : i < (npDiff l).length) :
    (npDiff l)[i] = l[i + 1]'(by rw [npDiff_length] at h; omega) - l[i]'(by rw [npDiff_length] at h; omega) := by
  simp [npDiff]

theorem pyGet_nat {β : Type} (l : List β) (i : Nat) (h : i < l.length) : pyGet l (i : Int) = .ok l[i] := by
  have : pyIdx l.length (i : Int) = some i := by
    unfold pyIdx
    rw [if_pos (by omega), if_pos (by omega)]
    simp
  unfold pyGet
  rw [this]
  simp [List.getElem?_eq_getElem h]

theorem pyGet_zero {β : Type} (l : List β) (h : 0 < l.length) : pyGet l 0 = .ok l[0] := pyGet_nat l 0 h

/-- `_normalize_time` on an array with at least two stamps and no equal neighbours. -/
theorem EMD.normalizeTime_ok (T : List K) (hl : 2 ≤ T.length) (hd : ∀ x ∈ npDiff T, x ≠ 0) :
    EMD.normalizeTime T = .ok (T.map (fun x => (x - T[0]) / npMin (npDiff T))) := by
  unfold EMD.normalizeTime
  have h1 : (npDiff T).all (fun x => !(x == lit 0)) = true := by
    rw [List.all_eq_true]
    intro x hx
    simpa using hd x hx
  have h2 : (npDiff T).isEmpty = false := by
    rw [List.isEmpty_eq_false_iff, ← List.length_pos_iff, npDiff_length]; omega
  simp only [h1, if_true, pyGet_zero T (by omega), npMinE, h2]
  rfl

theorem npDiff_map_affine (c d : K) (T : List K) : npDiff (T.map (fun x => c * x + d)) = (npDiff T).map (c * ·) := by
  apply List.ext_getElem
  · simp [npDiff_length]
  · intro i h1 h2
    rw [npDiff_getElem, List.getElem_map, List.getElem_map, List.getElem_map, npDiff_getElem]
    ring

theorem EMD.normalizeTime_affine (c d : K) (hc : 0 < c) (T : List K) :
    EMD.normalizeTime (T.map (fun x => c * x + d)) = EMD.normalizeTime T := by
  unfold EMD.normalizeTime
  rw [npDiff_map_affine]
  have h1 : ((npDiff T).map (c * ·)).all (fun x => !(x == lit 0)) = (npDiff T).all (fun x => !(x == lit 0)) := by
    rw [List.all_map]
    congr 1
    funext x
    rw [Function.comp, lit_zero, Bool.eq_iff_iff]
    simp only [Bool.not_eq_true', beq_eq_false_iff_ne, ne_eq, mul_eq_zero, hc.ne', false_or]
  simp only [h1]
  split
  · by_cases h0 : 0 < T.length
    · rw [pyGet_zero _ (by simpa using h0), pyGet_zero _ h0]
      simp only [bind, Except.bind, npMinE, List.isEmpty_map]
      by_cases he : (npDiff T).isEmpty = true
      · simp only [he, if_true]
      · simp only [he, if_false, pure, Except.pure, Except.ok.injEq, List.map_map, List.getElem_map]
        rw [npMin_map_mul c hc]
        simp only [Bool.false_eq_true, if_false, Except.ok.injEq]
        apply List.map_congr_left
        intro x _
        simp only [Function.comp]
        rw [show c * x + d - (c * T[0] + d) = c * (x - T[0]) by ring, mul_div_mul_left _ _ hc.ne']
    · have : T = [] := List.eq_nil_of_length_eq_zero (by omega)
      subst this
      rfl
  · rfl

end PyEMD
