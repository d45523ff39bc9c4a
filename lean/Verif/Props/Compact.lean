import Verif.Model.Compact
import Verif.Spec.Compact
import Verif.Lemmas.Exact
import Verif.Props.EmdExact
import Mathlib.Data.Rat.Floor
import Mathlib.Tactic.FieldSimp
import Mathlib.Tactic.Ring
import Mathlib.Tactic.Linarith
import Mathlib.Tactic.NormNum
import Mathlib.Tactic.LinearCombination
import Mathlib.Tactic.IntervalCases

/-!
# C44, C45, C46: the compact finite-difference routines
-/

set_option linter.unusedSectionVars false

namespace PyEMD
namespace Compact

open Spec

variable {K : Type} [Field K] [LinearOrder K] [IsStrictOrderedRing K] [FloorRing K]

/-! ## The Thomas algorithm -/

/-- The bidiagonal system left after the forward sweep. -/
def Swept (a b c d : ℕ → K) (n : ℕ) (y : ℕ → K) : Prop :=
  ∀ i < n, y i + (if i + 1 < n then cpAt a b c i * y (i + 1) else 0) = dpAt a b c d i

theorem swept_iff (a b c d : ℕ → K) (n : ℕ) (h : ∀ i < n, pivot a b c i ≠ 0) (y : ℕ → K) :
    SolvesTridiagonal a b c d n y ↔ Swept a b c d n y := by
  constructor
  · intro hs i
    induction i with
    | zero =>
      intro hi
      have h0 := hs 0 hi
      have hp := h 0 hi
      simp only [pivot] at hp
      simp only [Nat.lt_irrefl, if_false, Nat.zero_add] at h0
      simp only [cpAt, dpAt, Nat.zero_add]
      split at h0
      · rename_i h1
        rw [if_pos h1]
        field_simp
        linear_combination h0
      · rename_i h1
        rw [if_neg h1]
        field_simp
        linear_combination h0
    | succ i ih =>
      intro hi
      have h0 := hs (i + 1) hi
      have hp := h (i + 1) hi
      have hi' := ih (by omega)
      rw [if_pos hi] at hi'
      simp only [pivot] at hp
      rw [if_pos (by omega : 0 < i + 1)] at h0
      simp only [cpAt, dpAt, Nat.add_sub_cancel] at h0 ⊢
      split at h0
      · rename_i h1
        rw [if_pos h1]
        field_simp
        linear_combination h0 - a (i + 1) * hi'
      · rename_i h1
        rw [if_neg h1]
        field_simp
        linear_combination h0 - a (i + 1) * hi'
  · intro hs i hi
    have h0 := hs i hi
    have hp := h i hi
    match i with
    | 0 =>
      simp only [pivot] at hp
      simp only [cpAt, dpAt, Nat.zero_add] at h0
      simp only [Nat.lt_irrefl, if_false, Nat.zero_add]
      split at h0
      · rename_i h1
        rw [if_pos h1]
        field_simp at h0
        linear_combination h0
      · rename_i h1
        rw [if_neg h1]
        field_simp at h0
        linear_combination h0
    | i + 1 =>
      have hi' := hs i (by omega)
      rw [if_pos hi] at hi'
      simp only [pivot] at hp
      rw [if_pos (by omega : 0 < i + 1)]
      simp only [cpAt, dpAt, Nat.add_sub_cancel] at h0 ⊢
      split at h0
      · rename_i h1
        rw [if_pos h1]
        field_simp at h0
        linear_combination h0 + a (i + 1) * hi'
      · rename_i h1
        rw [if_neg h1]
        field_simp at h0
        linear_combination h0 + a (i + 1) * hi'

theorem swept_back (a b c d : ℕ → K) (n : ℕ) : Swept a b c d n (fun i => backAt a b c d n (n - 1 - i)) := by
  intro i hi
  by_cases h : i + 1 < n
  · rw [if_pos h]
    obtain ⟨k, hk⟩ : ∃ k, n - 1 - i = k + 1 := ⟨n - 2 - i, by omega⟩
    have hk' : n - 1 - (i + 1) = k := by omega
    have hi' : n - 1 - (k + 1) = i := by omega
    simp only [hk, hk', backAt, hi']
    ring
  · rw [if_neg h]
    have h0 : n - 1 - i = 0 := by omega
    have h1 : n - 1 = i := by omega
    have h2 : i - i = 0 := Nat.sub_self i
    simp only [backAt, h1, h2, add_zero]

theorem swept_unique (a b c d : ℕ → K) (n : ℕ) (x y : ℕ → K) (hx : Swept a b c d n x) (hy : Swept a b c d n y) :
    ∀ i < n, x i = y i := by
  have key : ∀ k, ∀ i < n, n - 1 - i = k → x i = y i := by
    intro k
    induction k with
    | zero =>
      intro i hi hk
      have h1 := hx i hi
      have h2 := hy i hi
      rw [if_neg (by omega)] at h1 h2
      linear_combination h1 - h2
    | succ k ih =>
      intro i hi hk
      have h1 := hx i hi
      have h2 := hy i hi
      have h3 := ih (i + 1) (by omega) (by omega)
      rw [if_pos (by omega)] at h1 h2
      rw [h3] at h1
      linear_combination h1 - h2
  intro i hi
  exact key _ i hi rfl

theorem tdma_ok (a b c d : ℕ → K) (n : ℕ) (x : List K) (h : tdma a b c d n = .ok x) :
    0 < n ∧ (∀ i < n, pivot a b c i ≠ 0) ∧ x = (List.range n).map (fun i => backAt a b c d n (n - 1 - i)) := by
  unfold tdma at h
  split at h
  · cases h
  · split at h
    · cases h
    · rename_i h0 h1
      refine ⟨by omega, ?_, by simpa using h.symm⟩
      simpa using h1

/-- The solver fails only on an empty system and on a vanishing pivot. -/
theorem tdma_total (a b c d : ℕ → K) (n : ℕ) (hn : 0 < n) (h : ∀ i < n, pivot a b c i ≠ 0) :
    ∃ x, tdma a b c d n = .ok x := by
  unfold tdma
  rw [if_neg (by omega), if_neg (by simpa using h)]
  exact ⟨_, rfl⟩

theorem tdma_solves (a b c d : ℕ → K) (n : ℕ) (x : List K) (h : tdma a b c d n = .ok x) :
    x.length = n ∧ SolvesTridiagonal a b c d n (fun i => x.getD i 0) := by
  obtain ⟨hn, hp, rfl⟩ := tdma_ok a b c d n x h
  refine ⟨by simp, ?_⟩
  rw [swept_iff _ _ _ _ _ hp]
  have := swept_back a b c d n
  intro i hi
  have h0 := this i hi
  simp only at h0 ⊢
  rw [← h0]
  by_cases h1 : i + 1 < n
  · simp [h1, hi, List.getD]
  · simp [h1, hi, List.getD]

theorem tdma_unique (a b c d : ℕ → K) (n : ℕ) (x : List K) (h : tdma a b c d n = .ok x) (y : ℕ → K)
    (hy : SolvesTridiagonal a b c d n y) : x = (List.range n).map y := by
  obtain ⟨hn, hp, rfl⟩ := tdma_ok a b c d n x h
  apply List.map_congr_left
  intro i hi
  exact swept_unique a b c d n _ _ (swept_back a b c d n) ((swept_iff _ _ _ _ _ hp y).1 hy) i (by simpa using hi)

theorem pivot_mul_minor (a b c : ℕ → K) (i : ℕ) (h : ∀ j < i, pivot a b c j ≠ 0) :
    pivot a b c i * leadingMinor a b c i = leadingMinor a b c (i + 1) := by
  induction i with
  | zero => simp [pivot, leadingMinor]
  | succ i ih =>
    have h0 := ih (fun j hj => h j (by omega))
    have hp := h i (by omega)
    have hcp : cpAt a b c i * pivot a b c i = c i := by
      match i with
      | 0 => simp only [cpAt, pivot] at hp ⊢; field_simp
      | i + 1 => simp only [cpAt, pivot] at hp ⊢; field_simp
    simp only [leadingMinor]
    rw [show pivot a b c (i + 1) = b (i + 1) - a (i + 1) * cpAt a b c i from rfl, ← h0]
    linear_combination (-a (i + 1) * leadingMinor a b c i) * hcp

theorem pivots_iff_minors (a b c : ℕ → K) (n : ℕ) :
    (∀ i < n, pivot a b c i ≠ 0) ↔ ∀ i < n, leadingMinor a b c (i + 1) ≠ 0 := by
  constructor
  · intro h
    have : ∀ i ≤ n, leadingMinor a b c i ≠ 0 := by
      intro i
      induction i with
      | zero => intro _; simp [leadingMinor]
      | succ i ih =>
        intro hi
        rw [← pivot_mul_minor a b c i (fun j hj => h j (by omega))]
        exact mul_ne_zero (h i (by omega)) (ih (by omega))
    exact fun i hi => this (i + 1) (by omega)
  · intro h i
    induction i using Nat.strong_induction_on with
    | _ i ih =>
      intro hi hz
      have h0 := pivot_mul_minor a b c i (fun j hj => ih j hj (by omega))
      rw [hz, zero_mul] at h0
      exact h i hi h0.symm

/-- **C44** When no leading minor of the system vanishes (equivalently: no divisor of the algorithm), `TDMAsolver` returns a
vector of the length of the diagonal that satisfies every equation, and no other vector does. -/
theorem C44_tdma (a b c d : List K) (hn : 0 < b.length) (ha : b.length ≤ a.length)
    (hc : b.length ≤ c.length + 1) (hc0 : 0 < c.length) (hd : b.length ≤ d.length)
    (hp : ∀ i < b.length, leadingMinor (fun i => a.getD i 0) (fun i => b.getD i 0) (fun i => c.getD i 0) (i + 1) ≠ 0) :
    ∃ x, TDMAsolver a b c d = .ok x ∧ x.length = b.length ∧
      SolvesTridiagonal (fun i => a.getD i 0) (fun i => b.getD i 0) (fun i => c.getD i 0) (fun i => d.getD i 0) b.length
        (fun i => x.getD i 0) ∧
      ∀ y : ℕ → K, SolvesTridiagonal (fun i => a.getD i 0) (fun i => b.getD i 0) (fun i => c.getD i 0) (fun i => d.getD i 0)
        b.length y → ∀ i < b.length, y i = x.getD i 0 := by
  obtain ⟨x, hx⟩ := tdma_total (fun i => a.getD i 0) (fun i => b.getD i 0) (fun i => c.getD i 0) (fun i => d.getD i 0)
    b.length hn ((pivots_iff_minors _ _ _ _).2 hp)
  obtain ⟨hl, hs⟩ := tdma_solves _ _ _ _ _ _ hx
  refine ⟨x, ?_, hl, hs, ?_⟩
  · unfold TDMAsolver
    rw [if_neg (by omega)]
    simpa using hx
  · intro y hy i hi
    rw [tdma_unique _ _ _ _ _ _ hx y hy]
    simp [hi, List.getD]

example : TDMAsolver [0, 1, 1] [2, 3, 2] [1, 1, 0] [4, 10, 8] = .ok ([1, 2, 3] : List ℚ) ∧
    TDMAsolver [0, 1, 1] [2, 3, 2] [1, 1] [4, 10, 8] = .ok ([1, 2, 3] : List ℚ) := by decide +kernel

example : ∀ i < 3, leadingMinor (fun i => ([0, 1, 1] : List ℚ).getD i 0) (fun i => ([2, 3, 2] : List ℚ).getD i 0)
    (fun i => ([1, 1, 0] : List ℚ).getD i 0) (i + 1) ≠ 0 := by decide +kernel

/-- **C44** (when it fails) A vanishing leading minor makes the algorithm divide by zero, even if the whole system is regular
(second example). -/
theorem C44_tdma_singular (a b c d : List K) (hn : 0 < b.length) (ha : b.length ≤ a.length)
    (hc : b.length ≤ c.length + 1) (hc0 : 0 < c.length) (hd : b.length ≤ d.length)
    (hp : ∃ i < b.length, leadingMinor (fun i => a.getD i 0) (fun i => b.getD i 0) (fun i => c.getD i 0) (i + 1) = 0) :
    TDMAsolver a b c d = .error .nonFinite := by
  have h : ¬ ∀ i < b.length, pivot (fun i => a.getD i (0 : K)) (fun i => b.getD i 0) (fun i => c.getD i 0) i ≠ 0 := by
    rw [pivots_iff_minors]
    simpa using hp
  unfold TDMAsolver tdma
  rw [if_neg (by omega), if_neg (by omega), if_pos (by simpa using h)]

example : TDMAsolver [0, 2] [1, 2] [1, 0] [1, 1] = (.error .nonFinite : PyM (List ℚ)) := by decide +kernel

example : TDMAsolver [0, 1] [0, 0] [1, 0] [1, 1] = (.error .nonFinite : PyM (List ℚ)) ∧
    SolvesTridiagonal (fun _ => (1 : ℚ)) (fun _ => 0) (fun _ => 1) (fun _ => 1) 2 (fun _ => 1) := by
  constructor
  · decide +kernel
  · intro i hi; interval_cases i <;> simp

/-- **C44** (short arrays) Arrays too short for the diagonal raise `IndexError`; the last entry of the super-diagonal may be left
out, the whole sub-diagonal when there is one equation. -/
theorem C44_short (a b c d : List K) : TDMAsolver a b c d = .error .indexError ↔
    b = [] ∨ d.length < b.length ∨ (2 ≤ b.length ∧ a.length < b.length) ∨ c = [] ∨ c.length + 1 < b.length := by
  unfold TDMAsolver
  have e : b = [] ↔ b.length = 0 := List.length_eq_zero_iff.symm
  have e' : c = [] ↔ c.length = 0 := List.length_eq_zero_iff.symm
  rw [e, e']
  split
  · simp only [true_iff]
    omega
  · unfold tdma
    split
    · simp only [true_iff]
      omega
    · constructor
      · intro h
        split at h <;> cases h
      · intro h
        omega

example : TDMAsolver [0, 1] [1, 1, 1] [1, 1] [1, 1, 1] = (.error .indexError : PyM (List ℚ)) ∧
    TDMAsolver [] [2] [7] [1, 1, 1] = .ok ([1 / 2] : List ℚ) := by decide +kernel

/-! ## The filter -/

/-- A strictly diagonally dominant system has no vanishing pivot. -/
theorem pivot_dominant (a b c : ℕ → K) (n : ℕ) (h : ∀ i < n, |a i| + |c i| < |b i|) : ∀ i < n, pivot a b c i ≠ 0 := by
  have key : ∀ i < n, pivot a b c i ≠ 0 ∧ |cpAt a b c i| < 1 := by
    intro i
    induction i with
    | zero =>
      intro hi
      have h0 := h 0 hi
      have ha := abs_nonneg (a 0)
      have hb : 0 < |b 0| := by linarith [abs_nonneg (c 0)]
      refine ⟨by simpa [pivot] using hb, ?_⟩
      simp only [cpAt, abs_div]
      rw [div_lt_one hb]
      linarith
    | succ i ih =>
      intro hi
      obtain ⟨-, hc⟩ := ih (by omega)
      have h0 := h (i + 1) hi
      have h1 : |a (i + 1) * cpAt a b c i| ≤ |a (i + 1)| := by
        rw [abs_mul]
        exact mul_le_of_le_one_right (abs_nonneg _) hc.le
      have h2 := abs_sub_abs_le_abs_sub (b (i + 1)) (a (i + 1) * cpAt a b c i)
      have h3 : |c (i + 1)| < |b (i + 1) - a (i + 1) * cpAt a b c i| := by linarith
      have h4 : 0 < |b (i + 1) - a (i + 1) * cpAt a b c i| := by linarith [abs_nonneg (c (i + 1))]
      refine ⟨by simpa [pivot] using h4, ?_⟩
      simp only [cpAt, abs_div]
      rw [div_lt_one h4]
      exact h3
  exact fun i hi => (key i hi).1

theorem filt6_pivots (alpha : K) (ha : |alpha| < 1 / 2) (n : ℕ) :
    ∀ i < n, pivot (filt6A alpha n) (fun _ => lit 1) (filt6C alpha n) i ≠ 0 := by
  apply pivot_dominant
  intro i _
  have h1 : |filt6A alpha n i| ≤ |alpha| := by
    unfold filt6A; split <;> simp
  have h2 : |filt6C alpha n i| ≤ |alpha| := by
    unfold filt6C; split <;> simp
  have h3 : |(lit 1 : K)| = 1 := by simp
  rw [h3]
  linarith

/-- **C45** (no zero pivot) For `|alpha| < 1/2` and at least five samples `filt6` returns as many samples. -/
theorem C45_total (f : List K) (alpha : K) (ha : |alpha| < 1 / 2) (hn : 5 ≤ f.length) :
    ∃ x, filt6 f alpha = .ok x ∧ x.length = f.length := by
  obtain ⟨x, hx⟩ := tdma_total (filt6A alpha f.length) (fun _ => lit 1) (filt6C alpha f.length)
    (filt6Rhs (fun i => f.getD i (lit 0)) alpha f.length) f.length (by omega) (filt6_pivots alpha ha _)
  refine ⟨x, ?_, (tdma_solves _ _ _ _ _ _ hx).1⟩
  unfold filt6
  rw [if_neg (by omega)]
  exact hx

theorem samples_getD (n : ℕ) (p : ℕ → K) (i : ℕ) (hi : i < n) : (samples n p).getD i 0 = p i := by
  simp [samples, hi, List.getD]

theorem filt6Rhs_congr (f g : ℕ → K) (alpha : K) (n : ℕ) (hn : 5 ≤ n) (h : ∀ i < n, f i = g i) (i : ℕ) (hi : i < n) :
    filt6Rhs f alpha n i = filt6Rhs g alpha n i := by
  unfold filt6Rhs
  split_ifs
  · rw [h (n - 3) (by omega), h (n - 1) (by omega), h (n - 2) (by omega), h (n - 4) (by omega), h (n - 5) (by omega)]
  · rw [h (n - 3) (by omega), h (n - 1) (by omega), h (n - 2) (by omega), h (n - 4) (by omega), h (n - 5) (by omega)]
  · rw [h (n - 3) (by omega), h (n - 1) (by omega), h (n - 2) (by omega), h (n - 4) (by omega), h (n - 5) (by omega)]
  · rw [h 0 (by omega), h 1 (by omega), h 2 (by omega), h 3 (by omega), h 4 (by omega)]
  · rw [h 0 (by omega), h 1 (by omega), h 2 (by omega), h 3 (by omega), h 4 (by omega)]
  · rw [h 0 (by omega), h 1 (by omega), h 2 (by omega), h 3 (by omega), h 4 (by omega)]
  · rw [h (i + 3) (by omega), h (i - 3) (by omega), h (i + 2) (by omega), h (i - 2) (by omega), h (i + 1) (by omega),
      h (i - 1) (by omega), h i hi]

theorem polyVal_four (cs : List K) (h : cs.length ≤ 4) :
    ∃ c0 c1 c2 c3 : K, ∀ x, polyVal cs x = c0 + c1 * x + c2 * x ^ 2 + c3 * x ^ 3 := by
  match cs with
  | [] => exact ⟨0, 0, 0, 0, fun x => by simp [polyVal]⟩
  | [c0] => exact ⟨c0, 0, 0, 0, fun x => by simp only [polyVal]; ring⟩
  | [c0, c1] => exact ⟨c0, c1, 0, 0, fun x => by simp only [polyVal]; ring⟩
  | [c0, c1, c2] => exact ⟨c0, c1, c2, 0, fun x => by simp only [polyVal]; ring⟩
  | [c0, c1, c2, c3] => exact ⟨c0, c1, c2, c3, fun x => by simp only [polyVal]; ring⟩

theorem filt6_row (alpha : K) (n : ℕ) (hn : 5 ≤ n) (x0 h c0 c1 c2 c3 : K) (f : ℕ → K)
    (hf : ∀ i : ℕ, f i = c0 + c1 * (x0 + i * h) + c2 * (x0 + i * h) ^ 2 + c3 * (x0 + i * h) ^ 3) :
    SolvesTridiagonal (filt6A alpha n) (fun _ => lit 1) (filt6C alpha n) (filt6Rhs f alpha n) n f := by
  intro i hi
  obtain ⟨m, rfl⟩ : ∃ m, n = m + 5 := ⟨n - 5, by omega⟩
  have e1 : m + 5 - 1 = m + 4 := rfl
  have e2 : m + 5 - 2 = m + 3 := rfl
  have e3 : m + 5 - 3 = m + 2 := rfl
  have e4 : m + 5 - 4 = m + 1 := rfl
  have e5 : m + 5 - 5 = m := rfl
  by_cases hb : i = m + 2 ∨ i = m + 3 ∨ i = m + 4 ∨ i = 2 ∨ i = 1 ∨ i = 0
  · have hA : (if 0 < i then filt6A alpha (m + 5) i * f (i - 1) else 0) = 0 := by
      split
      · unfold filt6A
        rw [if_pos (by omega)]; simp
      · rfl
    have hC : (if i + 1 < m + 5 then filt6C alpha (m + 5) i * f (i + 1) else 0) = 0 := by
      split
      · unfold filt6C
        rw [if_pos (by omega)]; simp
      · rfl
    rw [hA, hC]
    unfold filt6Rhs
    simp only [e1, e2, e3, e4, e5, lit_eq]
    split_ifs with h1 h2 h3 h4 h5 h6
    · rw [h1]; simp only [hf]; push_cast; ring
    · rw [h2]; simp only [hf]; push_cast; ring
    · rw [h3]; simp only [hf]; push_cast; ring
    · rw [h4]; simp only [hf]; push_cast; ring
    · rw [h5]; simp only [hf]; push_cast; ring
    · rw [h6]; simp only [hf]; push_cast; ring
    · omega
  · rw [if_pos (by omega), if_pos (by omega)]
    unfold filt6A filt6C filt6Rhs
    simp only [e1, e2, e3, e4, e5]
    rw [if_neg (by omega), if_neg (by omega), if_neg (by omega), if_neg (by omega), if_neg (by omega), if_neg (by omega),
      if_neg (by omega), if_neg (by omega)]
    obtain ⟨k, rfl⟩ : ∃ k, i = k + 3 := ⟨i - 3, by omega⟩
    rw [show k + 3 - 3 = k from rfl, show k + 3 - 2 = k + 1 from rfl, show k + 3 - 1 = k + 2 from rfl]
    simp only [hf, lit_eq]; push_cast; ring

/-- **C45** (polynomials) Samples of a polynomial of degree at most 3 pass `filt6` unchanged. -/
theorem C45_cubic (alpha : K) (ha : |alpha| < 1 / 2) (n : ℕ) (hn : 5 ≤ n) (x0 h : K) (cs : List K) (hcs : cs.length ≤ 4) :
    filt6 (samples n (fun i => polyVal cs (x0 + i * h))) alpha = .ok (samples n (fun i => polyVal cs (x0 + i * h))) := by
  obtain ⟨c0, c1, c2, c3, hc⟩ := polyVal_four cs hcs
  have hl : (samples n (fun i => polyVal cs (x0 + i * h))).length = n := by simp [samples]
  obtain ⟨x, hx, -⟩ := C45_total _ alpha ha (hn.trans hl.ge)
  rw [hx]
  unfold filt6 at hx
  rw [hl, if_neg (by omega)] at hx
  rw [tdma_unique _ _ _ _ _ _ hx (fun i => polyVal cs (x0 + i * h))]
  · rfl
  · have := filt6_row alpha n hn x0 h c0 c1 c2 c3 _ (fun i => hc (x0 + i * h))
    intro i hi
    rw [this i hi]
    apply filt6Rhs_congr _ _ _ _ hn _ i hi
    intro j hj
    rw [lit_zero, samples_getD _ _ _ hj]

example : filt6 [0, 1, 8, 27, 64, 125, 216, 343] (2 / 5) = .ok ([0, 1, 8, 27, 64, 125, 216, 343] : List ℚ) := by
  decide +kernel

example : filt6 [0, 1, 0, 0, 0, 0, 0] (2 / 5) = .ok ([1 / 4, 3 / 4, 1 / 4, -19 / 160, 0, 0, 0] : List ℚ) := by
  decide +kernel

/-- **C45** (linear) The filter of a linear combination is the linear combination of the filtered signals. -/
theorem C45_linear (alpha : K) (ha : |alpha| < 1 / 2) (f g : List K) (hn : 5 ≤ f.length) (hl : g.length = f.length) (s t : K) :
    ∃ x y, filt6 f alpha = .ok x ∧ filt6 g alpha = .ok y ∧
      filt6 (List.zipWith (fun a b => s * a + t * b) f g) alpha = .ok (List.zipWith (fun a b => s * a + t * b) x y) := by
  have hz : (List.zipWith (fun a b => s * a + t * b) f g).length = f.length := by simp [hl]
  obtain ⟨x, hx, hxl⟩ := C45_total f alpha ha hn
  obtain ⟨y, hy, hyl⟩ := C45_total g alpha ha (hl ▸ hn)
  obtain ⟨z, hz', hzl⟩ := C45_total (List.zipWith (fun a b => s * a + t * b) f g) alpha ha (hz ▸ hn)
  refine ⟨x, y, hx, hy, ?_⟩
  rw [hz']
  unfold filt6 at hx hy hz'
  rw [if_neg (by omega)] at hx hy hz'
  rw [hl] at hy
  rw [hz] at hz'
  have sx := (tdma_solves _ _ _ _ _ _ hx).2
  have sy := (tdma_solves _ _ _ _ _ _ hy).2
  congr 1
  rw [tdma_unique _ _ _ _ _ _ hz' (fun i => s * x.getD i 0 + t * y.getD i 0)]
  · apply List.ext_getElem
    · simp [hxl, hyl, hl]
    · intro i h1 h2
      have hi : i < f.length := by simpa using h1
      simp [List.getD, hxl, hyl, hl, hi]
  · intro i hi
    have h1 := sx i hi
    have h2 := sy i hi
    have e : filt6Rhs (fun i => (List.zipWith (fun a b => s * a + t * b) f g).getD i (lit 0)) alpha f.length i =
        s * filt6Rhs (fun i => f.getD i (lit 0)) alpha f.length i + t * filt6Rhs (fun i => g.getD i (lit 0)) alpha f.length i := by
      rw [filt6Rhs_congr _ (fun i => s * f.getD i 0 + t * g.getD i 0) _ _ hn _ i hi]
      · unfold filt6Rhs
        simp only [lit_eq, Rat.cast_zero]
        split_ifs <;> ring
      · intro j hj
        simp [List.getD, hl, hj]
    rw [e, ← h1, ← h2]
    simp only
    split_ifs <;> ring

/-- Fewer than five samples: `IndexError`. -/
theorem C45_short (f : List K) (alpha : K) (hn : f.length < 5) : filt6 f alpha = .error .indexError := by
  unfold filt6
  rw [if_pos hn]

example : filt6 [1, 2, 3, 4] (2 / 5) = (.error .indexError : PyM (List ℚ)) := by decide +kernel

/-! ## The derivative -/

theorem pade6_cp (n : ℕ) (hn : 7 ≤ n) (cp : ℕ → K) (hcp : cp = cpAt (pade6A n) (fun _ => lit 1) (pade6C n)) :
    cp 0 = 5 ∧ cp 1 = 2 ∧ cp 2 = 1 ∧ cp 3 = 1 / 2 ∧ ∀ i, 4 ≤ i → i ≤ n - 3 → 0 < cp i ∧ cp i ≤ 2 / 5 := by
  have hs : ∀ i, cp (i + 1) = pade6C n (i + 1) / (1 - pade6A n (i + 1) * cp i) := by
    intro i
    rw [hcp, cpAt, lit_one]
  have h0 : cp 0 = 5 := by
    rw [hcp, cpAt]
    simp only [pade6C]
    rw [if_neg (by omega), if_neg (by omega), if_pos trivial]
    norm_num [lit_eq]
  have h1 : cp 1 = 2 := by
    rw [hs 0, h0]
    have eC : pade6C (α := K) n (0 + 1) = 2 / 11 := by
      simp only [pade6C]
      rw [if_neg (by omega), if_pos trivial]
      norm_num [lit_eq]
    have eA : pade6A (α := K) n (0 + 1) = 2 / 11 := by
      simp only [pade6A]
      rw [if_neg (by omega), if_neg (by omega), if_pos trivial]
      norm_num [lit_eq]
    rw [eC, eA]
    norm_num
  have hin : ∀ i, 1 ≤ i → i < n - 3 → cp (i + 1) = 1 / 3 / (1 - 1 / 3 * cp i) := by
    intro i h1 h2
    rw [hs i]
    simp only [pade6C, pade6A]
    rw [if_neg (by omega), if_neg (by omega), if_neg (by omega), if_neg (by omega), if_neg (by omega), if_neg (by omega)]
    norm_num [lit_eq]
  have h2 : cp 2 = 1 := by
    rw [hin 1 (by omega) (by omega), h1]; norm_num
  have h3 : cp 3 = 1 / 2 := by
    rw [hin 2 (by omega) (by omega), h2]; norm_num
  refine ⟨h0, h1, h2, h3, ?_⟩
  intro i hi
  induction i, hi using Nat.le_induction with
  | base =>
    intro h4
    rw [hin 3 (by omega) (by omega), h3]; norm_num
  | succ i hi ih =>
    intro h4
    obtain ⟨h5, h6⟩ := ih (by omega)
    rw [hin i (by omega) (by omega)]
    have h7 : 0 < 1 - 1 / 3 * cp i := by linarith
    refine ⟨by positivity, ?_⟩
    rw [div_le_iff₀ h7]
    linarith

theorem pade6_pivots (n : ℕ) (hn : 7 ≤ n) : ∀ i < n, pivot (pade6A (α := K) n) (fun _ => lit 1) (pade6C n) i ≠ 0 := by
  obtain ⟨cp, hcp⟩ : ∃ cp, cp = cpAt (pade6A (α := K) n) (fun _ => lit 1) (pade6C n) := ⟨_, rfl⟩
  obtain ⟨h0, h1, h2, h3, h4⟩ := pade6_cp n hn cp hcp
  intro i hi
  match i with
  | 0 => simp [pivot]
  | i + 1 =>
    rw [pivot, ← hcp, lit_one]
    by_cases e1 : i + 1 = n - 1
    · have e2 : cp i = 2 / 11 / (1 - 2 / 11 * cp (n - 3)) := by
        obtain ⟨j, rfl⟩ : ∃ j, i = j + 1 := ⟨i - 1, by omega⟩
        rw [hcp, cpAt, ← hcp, lit_one]
        simp only [pade6C, pade6A]
        rw [if_pos (by omega), if_pos (by omega), show j = n - 3 by omega]
        norm_num [lit_eq]
      obtain ⟨h5, h6⟩ := h4 (n - 3) (by omega) le_rfl
      have e3 : pade6A (α := K) n (i + 1) = 5 := by
        simp only [pade6A]
        rw [if_neg (by omega), if_pos (by omega)]
        norm_num [lit_eq]
      have h7 : 0 < 1 - 2 / 11 * cp (n - 3) := by linarith
      have h8 : cp i < 1 / 5 := by
        rw [e2, div_lt_iff₀ h7]
        linarith
      rw [e3]
      intro h10
      linarith
    · match i with
      | 0 =>
        rw [h0]
        simp only [pade6A, Nat.zero_add]
        rw [if_neg (by omega), if_neg (by omega)]
        norm_num [lit_eq]
      | 1 =>
        rw [h1]
        simp only [pade6A]
        rw [if_neg (by omega), if_neg (by omega), if_neg (by omega)]
        norm_num [lit_eq]
      | 2 =>
        rw [h2]
        simp only [pade6A]
        rw [if_neg (by omega), if_neg (by omega), if_neg (by omega)]
        norm_num [lit_eq]
      | 3 =>
        rw [h3]
        simp only [pade6A]
        rw [if_neg (by omega), if_neg (by omega), if_neg (by omega)]
        norm_num [lit_eq]
      | i + 4 =>
        obtain ⟨h5, h6⟩ := h4 (i + 4) (by omega) (by omega)
        intro h10
        have e3 : pade6A (α := K) n (i + 4 + 1) = 2 / 11 ∨ pade6A (α := K) n (i + 4 + 1) = 1 / 3 := by
          simp only [pade6A]
          rw [if_neg e1]
          split_ifs
          · norm_num [lit_eq]
          · omega
          · norm_num [lit_eq]
        rcases e3 with e3 | e3 <;> rw [e3] at h10 <;> linarith

theorem pade6Rhs_congr (f g : ℕ → K) (h : K) (n : ℕ) (hn : 6 ≤ n) (hfg : ∀ i < n, f i = g i) (i : ℕ) (hi : i < n) :
    pade6Rhs f h n i = pade6Rhs g h n i := by
  unfold pade6Rhs
  split_ifs
  · rw [hfg (n - 1) (by omega), hfg (n - 2) (by omega), hfg (n - 3) (by omega), hfg (n - 4) (by omega), hfg (n - 5) (by omega),
      hfg (n - 6) (by omega)]
  · rw [hfg (n - 1) (by omega), hfg (n - 2) (by omega), hfg (n - 3) (by omega), hfg (n - 4) (by omega), hfg (n - 5) (by omega),
      hfg (n - 6) (by omega)]
  · rw [hfg 0 (by omega), hfg 1 (by omega), hfg 2 (by omega), hfg 3 (by omega), hfg 4 (by omega), hfg 5 (by omega)]
  · rw [hfg 0 (by omega), hfg 1 (by omega), hfg 2 (by omega), hfg 3 (by omega), hfg 4 (by omega), hfg 5 (by omega)]
  · rw [hfg (i + 1) (by omega), hfg (i - 1) (by omega), hfg (i + 2) (by omega), hfg (i - 2) (by omega)]

theorem polyVal_six (cs : List K) (h : cs.length ≤ 6) :
    ∃ c0 c1 c2 c3 c4 c5 : K, (∀ x, polyVal cs x = c0 + c1 * x + c2 * x ^ 2 + c3 * x ^ 3 + c4 * x ^ 4 + c5 * x ^ 5) ∧
      ∀ x, polyVal (polyDeriv cs) x = c1 + 2 * c2 * x + 3 * c3 * x ^ 2 + 4 * c4 * x ^ 3 + 5 * c5 * x ^ 4 := by
  match cs with
  | [] => exact ⟨0, 0, 0, 0, 0, 0, fun x => by simp [polyVal], fun x => by simp [polyVal, polyDeriv]⟩
  | [c0] => exact ⟨c0, 0, 0, 0, 0, 0, fun x => by simp only [polyVal]; ring, fun x => by simp [polyVal, polyDeriv, scaled]⟩
  | [c0, c1] => exact ⟨c0, c1, 0, 0, 0, 0, fun x => by simp only [polyVal]; ring,
      fun x => by simp only [polyVal, polyDeriv, scaled]; push_cast; ring⟩
  | [c0, c1, c2] => exact ⟨c0, c1, c2, 0, 0, 0, fun x => by simp only [polyVal]; ring,
      fun x => by simp only [polyVal, polyDeriv, scaled]; push_cast; ring⟩
  | [c0, c1, c2, c3] => exact ⟨c0, c1, c2, c3, 0, 0, fun x => by simp only [polyVal]; ring,
      fun x => by simp only [polyVal, polyDeriv, scaled]; push_cast; ring⟩
  | [c0, c1, c2, c3, c4] => exact ⟨c0, c1, c2, c3, c4, 0, fun x => by simp only [polyVal]; ring,
      fun x => by simp only [polyVal, polyDeriv, scaled]; push_cast; ring⟩
  | [c0, c1, c2, c3, c4, c5] => exact ⟨c0, c1, c2, c3, c4, c5, fun x => by simp only [polyVal]; ring,
      fun x => by simp only [polyVal, polyDeriv, scaled]; push_cast; ring⟩

theorem pade6_row (n : ℕ) (hn : 6 ≤ n) (x0 h c0 c1 c2 c3 c4 c5 : K) (hh : h ≠ 0) (f y : ℕ → K)
    (hf : ∀ i : ℕ, f i = c0 + c1 * (x0 + i * h) + c2 * (x0 + i * h) ^ 2 + c3 * (x0 + i * h) ^ 3 + c4 * (x0 + i * h) ^ 4 +
      c5 * (x0 + i * h) ^ 5)
    (hy : ∀ i : ℕ, y i = c1 + 2 * c2 * (x0 + i * h) + 3 * c3 * (x0 + i * h) ^ 2 + 4 * c4 * (x0 + i * h) ^ 3 +
      5 * c5 * (x0 + i * h) ^ 4) :
    SolvesTridiagonal (pade6A n) (fun _ => lit 1) (pade6C n) (pade6Rhs f h n) n y := by
  intro i hi
  obtain ⟨m, rfl⟩ : ∃ m, n = m + 6 := ⟨n - 6, by omega⟩
  have e1 : m + 6 - 1 = m + 5 := rfl
  have e2 : m + 6 - 2 = m + 4 := rfl
  have e3 : m + 6 - 3 = m + 3 := rfl
  have e4 : m + 6 - 4 = m + 2 := rfl
  have e5 : m + 6 - 5 = m + 1 := rfl
  have e6 : m + 6 - 6 = m := rfl
  unfold pade6A pade6C pade6Rhs
  simp only [e1, e2, e3, e4, e5, e6]
  by_cases b0 : i = 0
  · subst b0
    rw [if_neg (by omega), if_pos (by omega), if_neg (by omega), if_neg (by omega), if_pos rfl, if_neg (by omega),
      if_neg (by omega), if_neg (by omega), if_pos rfl]
    simp only [hf, hy, lit_eq]; push_cast; field_simp; ring
  by_cases b1 : i = 1
  · subst b1
    rw [if_pos (by omega), if_neg (by omega), if_neg (by omega), if_pos rfl, if_pos (by omega), if_neg (by omega), if_pos rfl,
      if_neg (by omega), if_neg (by omega), if_pos rfl]
    simp only [hf, hy, lit_eq]; push_cast; field_simp; ring
  by_cases b2 : i = m + 4
  · subst b2
    rw [if_pos (by omega), if_pos rfl, if_pos (by omega), if_pos rfl, if_pos rfl]
    rw [show m + 4 - 1 = m + 3 from rfl]
    simp only [hf, hy, lit_eq]; push_cast; field_simp; ring
  by_cases b3 : i = m + 5
  · subst b3
    rw [if_pos (by omega), if_neg (by omega), if_pos rfl, if_neg (by omega), if_neg (by omega), if_pos rfl]
    rw [show m + 5 - 1 = m + 4 from rfl]
    simp only [hf, hy, lit_eq]; push_cast; field_simp; ring
  · rw [if_pos (by omega), if_neg b2, if_neg b3, if_neg b1, if_pos (by omega), if_neg b2, if_neg b1, if_neg b0,
      if_neg b2, if_neg b3, if_neg b1, if_neg b0]
    obtain ⟨k, rfl⟩ : ∃ k, i = k + 2 := ⟨i - 2, by omega⟩
    rw [show k + 2 - 2 = k from rfl, show k + 2 - 1 = k + 1 from rfl]
    simp only [hf, hy, lit_eq]; push_cast; field_simp; ring

/-- **C46** (part) For at least seven samples `pade6` returns the exact derivative of a polynomial of degree at most 5.
Missing: six samples, the shortest input the function accepts (`C46_counterexample`). -/
theorem C46_derivative_partial (n : ℕ) (hn : 7 ≤ n) (x0 h : K) (hh : h ≠ 0) (cs : List K) (hcs : cs.length ≤ 6) :
    pade6 (samples n (fun i => polyVal cs (x0 + i * h))) h = .ok (samples n (fun i => polyVal (polyDeriv cs) (x0 + i * h))) := by
  obtain ⟨c0, c1, c2, c3, c4, c5, hc, hd⟩ := polyVal_six cs hcs
  have hl : (samples n (fun i => polyVal cs (x0 + i * h))).length = n := by simp [samples]
  unfold pade6
  rw [hl, if_neg (by omega), if_neg (by simpa using hh)]
  obtain ⟨x, hx⟩ := tdma_total (pade6A (α := K) n) (fun _ => lit 1) (pade6C n)
    (pade6Rhs (fun i => (samples n (fun i => polyVal cs (x0 + i * h))).getD i (lit 0)) h n) n (by omega) (pade6_pivots n hn)
  rw [hx, tdma_unique _ _ _ _ _ _ hx (fun i => polyVal (polyDeriv cs) (x0 + i * h))]
  · rfl
  · have := pade6_row n (by omega) x0 h c0 c1 c2 c3 c4 c5 hh _ _ (fun i => hc (x0 + i * h)) (fun i => hd (x0 + i * h))
    intro i hi
    rw [this i hi]
    apply pade6Rhs_congr _ _ _ _ (by omega) _ i hi
    intro j hj
    rw [lit_zero, samples_getD _ _ _ hj]

example : pade6 [0, 1, 32, 243, 1024, 3125, 7776, 16807] 1 = .ok ([0, 5, 80, 405, 1280, 3125, 6480, 12005] : List ℚ) := by
  decide +kernel

/-- **C46** does not hold for six samples: whatever the samples and the step, the last pivot is zero. -/
theorem C46_counterexample (vec : List K) (h : K) (hl : vec.length = 6) : pade6 vec h = .error .nonFinite := by
  unfold pade6
  rw [hl, if_neg (by omega)]
  split
  · rfl
  · have hp : pivot (pade6A (α := K) 6) (fun _ => lit 1) (pade6C 6) 5 = 0 := by
      simp only [pivot, cpAt, pade6A, pade6C]
      norm_num [lit_eq]
    unfold tdma
    rw [if_neg (by omega), if_pos]
    simp only [List.any_eq_true, List.mem_range]
    exact ⟨5, by omega, by rw [hp]; simp⟩

example : pade6 [0, 1, 2, 3, 4, 5] 1 = (.error .nonFinite : PyM (List ℚ)) := by decide +kernel

end Compact
end PyEMD
