import Verif.Props.Compact
import Mathlib.Tactic.Ring
import Mathlib.Tactic.FieldSimp
import Mathlib.Tactic.LinearCombination

set_option linter.unusedSectionVars false

/-! # C86, C87: the filter and the derivative treat both directions alike; what the filter removes -/

namespace PyEMD
namespace Compact
open Spec

variable {K : Type} [Field K] [LinearOrder K] [IsStrictOrderedRing K] [FloorRing K]

theorem getD_reverse' (f : List K) (i : ℕ) (hi : i < f.length) : f.reverse.getD i 0 = f.getD (f.length - 1 - i) 0 := by
  simp [List.getD, List.getElem?_reverse hi]

/-- A tridiagonal system read from the last row to the first. -/
theorem solves_reverse {a c d a' c' d' b : ℕ → K} {n : ℕ} {x : ℕ → K} (hb : ∀ i < n, b (n - 1 - i) = b i)
    (ha : ∀ i < n, 0 < i → a' i = c (n - 1 - i)) (hc : ∀ i, i + 1 < n → c' i = a (n - 1 - i)) (hd : ∀ i < n, d' i = d (n - 1 - i))
    (h : SolvesTridiagonal a b c d n x) : SolvesTridiagonal a' b c' d' n (fun i => x (n - 1 - i)) := by
  intro i hi
  have := h (n - 1 - i) (by omega)
  rw [hd i hi, ← this, hb i hi]
  have e1 : (if 0 < i then a' i * x (n - 1 - (i - 1)) else 0) =
      (if n - 1 - i + 1 < n then c (n - 1 - i) * x (n - 1 - i + 1) else 0) := by
    by_cases h0 : 0 < i
    · rw [if_pos h0, if_pos (by omega), ha i hi h0, show n - 1 - (i - 1) = n - 1 - i + 1 by omega]
    · rw [if_neg h0, if_neg (by omega)]
  have e2 : (if i + 1 < n then c' i * x (n - 1 - (i + 1)) else 0) =
      (if 0 < n - 1 - i then a (n - 1 - i) * x (n - 1 - i - 1) else 0) := by
    by_cases h0 : i + 1 < n
    · rw [if_pos h0, if_pos (by omega), hc i h0, show n - 1 - (i + 1) = n - 1 - i - 1 by omega]
    · rw [if_neg h0, if_neg (by omega)]
  dsimp only
  rw [e1, e2]
  ring

section FilterRows
variable (f : ℕ → K) (alpha : K) (n : ℕ)

theorem filt6Rhs_last2 (i : ℕ) (h : i = n - 3) : filt6Rhs f alpha n i =
    lit (5 / 8) * f (n - 3) + (-f (n - 1) + lit 4 * f (n - 2) + lit 4 * f (n - 4) - f (n - 5)) / lit 16 := by
  unfold filt6Rhs
  dsimp only
  rw [if_pos h]

theorem filt6Rhs_last1 (hn : 5 ≤ n) (i : ℕ) (h : i = n - 2) : filt6Rhs f alpha n i =
    lit (3 / 4) * f (n - 2) + (f (n - 1) + lit 6 * f (n - 3) - lit 4 * f (n - 4) + f (n - 5)) / lit 16 := by
  unfold filt6Rhs
  dsimp only
  rw [if_neg (by omega), if_pos h]

theorem filt6Rhs_last0 (hn : 5 ≤ n) (i : ℕ) (h : i = n - 1) : filt6Rhs f alpha n i =
    lit (15 / 16) * f (n - 1) + (lit 4 * f (n - 2) - lit 6 * f (n - 3) + lit 4 * f (n - 4) - f (n - 5)) / lit 16 := by
  unfold filt6Rhs
  dsimp only
  rw [if_neg (by omega), if_neg (by omega), if_pos h]

theorem filt6Rhs_first2 (hn : 5 < n) : filt6Rhs f alpha n 2 =
    lit (5 / 8) * f 2 + (-f 0 + lit 4 * f 1 + lit 4 * f 3 - f 4) / lit 16 := by
  unfold filt6Rhs
  dsimp only
  rw [if_neg (by omega), if_neg (by omega), if_neg (by omega), if_pos rfl]

theorem filt6Rhs_first1 (hn : 5 ≤ n) : filt6Rhs f alpha n 1 =
    lit (3 / 4) * f 1 + (f 0 + lit 6 * f 2 - lit 4 * f 3 + f 4) / lit 16 := by
  unfold filt6Rhs
  dsimp only
  rw [if_neg (by omega), if_neg (by omega), if_neg (by omega), if_neg (by omega), if_pos rfl]

theorem filt6Rhs_first0 (hn : 5 ≤ n) : filt6Rhs f alpha n 0 =
    lit (15 / 16) * f 0 + (lit 4 * f 1 - lit 6 * f 2 + lit 4 * f 3 - f 4) / lit 16 := by
  unfold filt6Rhs
  dsimp only
  rw [if_neg (by omega), if_neg (by omega), if_neg (by omega), if_neg (by omega), if_neg (by omega), if_pos rfl]

theorem filt6Rhs_mid (i : ℕ) (h : 3 ≤ i) (h' : i + 3 < n) : filt6Rhs f alpha n i =
    (lit 1 - lit 2 * alpha) / lit 32 * lit (1 / 2) * (f (i + 3) + f (i - 3)) +
      (lit (-3) + lit 6 * alpha) / lit 16 * lit (1 / 2) * (f (i + 2) + f (i - 2)) +
      (lit 15 + lit 34 * alpha) / lit 32 * lit (1 / 2) * (f (i + 1) + f (i - 1)) + (lit 11 + lit 10 * alpha) / lit 16 * f i := by
  unfold filt6Rhs
  dsimp only
  rw [if_neg (by omega), if_neg (by omega), if_neg (by omega), if_neg (by omega), if_neg (by omega), if_neg (by omega)]

end FilterRows

theorem filt6Rhs_reverse (f : ℕ → K) (alpha : K) (n : ℕ) (hn : 5 ≤ n) (i : ℕ) (hi : i < n) :
    filt6Rhs (fun j => f (n - 1 - j)) alpha n i = filt6Rhs f alpha n (n - 1 - i) := by
  have q0 : n - 1 - (n - 1) = 0 := by omega
  have q1 : n - 1 - (n - 2) = 1 := by omega
  have q2 : n - 1 - (n - 3) = 2 := by omega
  have q3 : n - 1 - (n - 4) = 3 := by omega
  have q4 : n - 1 - (n - 5) = 4 := by omega
  have r0 : n - 1 - 0 = n - 1 := by omega
  have r1 : n - 1 - 1 = n - 2 := by omega
  have r2 : n - 1 - 2 = n - 3 := by omega
  have r3 : n - 1 - 3 = n - 4 := by omega
  have r4 : n - 1 - 4 = n - 5 := by omega
  by_cases b0 : i = 0
  · subst b0
    rw [filt6Rhs_first0 _ _ _ hn, filt6Rhs_last0 _ _ _ hn (n - 1 - 0) r0]
    simp only [r0, r1, r2, r3, r4]
  by_cases b1 : i = 1
  · subst b1
    rw [filt6Rhs_first1 _ _ _ hn, filt6Rhs_last1 _ _ _ hn (n - 1 - 1) r1]
    simp only [r0, r1, r2, r3, r4]
  by_cases b3 : i = n - 1
  · subst b3
    rw [q0, filt6Rhs_first0 _ _ _ hn, filt6Rhs_last0 _ _ _ hn _ rfl]
    simp only [q0, q1, q2, q3, q4]
  by_cases b4 : i = n - 2
  · subst b4
    rw [q1, filt6Rhs_first1 _ _ _ hn, filt6Rhs_last1 _ _ _ hn _ rfl]
    simp only [q0, q1, q2, q3, q4]
  by_cases b2 : i = 2
  · subst b2
    by_cases hm : n = 5
    · subst hm
      rw [filt6Rhs_last2 _ _ _ _ rfl, filt6Rhs_last2 _ _ _ _ rfl]
      simp only [Nat.reduceSub]
      ring
    · rw [filt6Rhs_first2 _ _ _ (by omega), filt6Rhs_last2 _ _ _ (n - 1 - 2) r2]
      simp only [r0, r1, r2, r3, r4]
  by_cases b5 : i = n - 3
  · subst b5
    rw [q2, filt6Rhs_first2 _ _ _ (by omega), filt6Rhs_last2 _ _ _ _ rfl]
    simp only [q0, q1, q2, q3, q4]
  · rw [filt6Rhs_mid _ _ _ i (by omega) (by omega), filt6Rhs_mid _ _ _ (n - 1 - i) (by omega) (by omega)]
    rw [show n - 1 - (i + 3) = n - 1 - i - 3 by omega, show n - 1 - (i - 3) = n - 1 - i + 3 by omega,
      show n - 1 - (i + 2) = n - 1 - i - 2 by omega, show n - 1 - (i - 2) = n - 1 - i + 2 by omega,
      show n - 1 - (i + 1) = n - 1 - i - 1 by omega, show n - 1 - (i - 1) = n - 1 - i + 1 by omega]
    ring

/-- **C86** (direction) Filtering the reversed signal gives the reversed filtered signal. -/
theorem C86_filter_reverse (alpha : K) (ha : |alpha| < 1 / 2) (f : List K) (hn : 5 ≤ f.length) :
    ∃ x, filt6 f alpha = .ok x ∧ filt6 f.reverse alpha = .ok x.reverse := by
  obtain ⟨x, hx, hxl⟩ := C45_total f alpha ha hn
  obtain ⟨y, hy, hyl⟩ := C45_total f.reverse alpha ha (by simpa using hn)
  refine ⟨x, hx, ?_⟩
  rw [hy]
  unfold filt6 at hx hy
  rw [if_neg (by omega)] at hx
  rw [List.length_reverse, if_neg (by omega)] at hy
  have sx := (tdma_solves _ _ _ _ _ _ hx).2
  congr 1
  rw [tdma_unique _ _ _ _ _ _ hy (fun i => x.getD (f.length - 1 - i) 0)]
  · apply List.ext_getElem
    · simp [hxl]
    · intro i h1 h2
      have hi : i < f.length := by simpa using h1
      simp [List.getD, hxl, show f.length - 1 - i < f.length by omega]
  · refine solves_reverse (fun _ _ => rfl) ?_ ?_ ?_ sx
    · intro i hi h0
      unfold filt6A filt6C
      simp only [show (f.length - 1 - i = f.length - 3 ∨ f.length - 1 - i = f.length - 2 ∨ f.length - 1 - i = 2 ∨
        f.length - 1 - i = 1 ∨ f.length - 1 - i = 0) ↔ (i = f.length - 3 ∨ i = f.length - 2 ∨ i = f.length - 1 ∨ i = 2 ∨ i = 1) by omega]
    · intro i hi
      unfold filt6A filt6C
      simp only [show (f.length - 1 - i = f.length - 3 ∨ f.length - 1 - i = f.length - 2 ∨ f.length - 1 - i = f.length - 1 ∨
        f.length - 1 - i = 2 ∨ f.length - 1 - i = 1) ↔ (i = f.length - 3 ∨ i = f.length - 2 ∨ i = 2 ∨ i = 1 ∨ i = 0) by omega]
    · intro i hi
      rw [← filt6Rhs_reverse _ _ _ hn i hi]
      apply filt6Rhs_congr _ _ _ _ hn _ i hi
      intro j hj
      rw [lit_zero, getD_reverse' _ _ hj]

example : filt6 [0, 1, 0, 0, 0, 0, 0] (2 / 5) = .ok ([1 / 4, 3 / 4, 1 / 4, -19 / 160, 0, 0, 0] : List ℚ) ∧
    filt6 [0, 0, 0, 0, 0, 1, 0] (2 / 5) = .ok ([0, 0, 0, -19 / 160, 1 / 4, 3 / 4, 1 / 4] : List ℚ) := by
  decide +kernel

/-- **C86** (what is removed) The fastest oscillation a sampled signal can have, `c, -c, c, …`, is removed completely, up to both
ends, whatever the filter parameter. -/
theorem C86_filter_alternating (alpha : K) (ha : |alpha| < 1 / 2) (n : ℕ) (hn : 5 ≤ n) (c : K) :
    filt6 (samples n (fun i => (-1) ^ i * c)) alpha = .ok (samples n (fun _ => 0)) := by
  have hl : (samples n (fun i => (-1) ^ i * c)).length = n := by simp [samples]
  obtain ⟨x, hx, -⟩ := C45_total _ alpha ha (hn.trans hl.ge)
  rw [hx]
  unfold filt6 at hx
  rw [hl, if_neg (by omega)] at hx
  rw [tdma_unique _ _ _ _ _ _ hx (fun _ => 0)]
  · rfl
  · intro i hi
    rw [filt6Rhs_congr _ (fun i => (-1) ^ i * c) _ _ hn _ i hi]
    · simp only [mul_zero, ite_self, add_zero]
      obtain ⟨m, rfl⟩ : ∃ m, n = m + 5 := ⟨n - 5, by omega⟩
      have e1 : m + 5 - 1 = m + 4 := rfl
      have e2 : m + 5 - 2 = m + 3 := rfl
      have e3 : m + 5 - 3 = m + 2 := rfl
      have e4 : m + 5 - 4 = m + 1 := rfl
      have e5 : m + 5 - 5 = m := rfl
      unfold filt6Rhs
      simp only [e1, e2, e3, e4, e5, lit_eq]
      split_ifs with h1 h2 h3 h4 h5 h6
      · push_cast; ring
      · push_cast; ring
      · push_cast; ring
      · push_cast; ring
      · push_cast; ring
      · push_cast; ring
      · obtain ⟨k, rfl⟩ : ∃ k, i = k + 3 := ⟨i - 3, by omega⟩
        rw [show k + 3 - 3 = k from rfl, show k + 3 - 2 = k + 1 from rfl, show k + 3 - 1 = k + 2 from rfl]
        push_cast; ring
    · intro j hj
      rw [lit_zero, samples_getD _ _ _ hj]

example : filt6 [3, -3, 3, -3, 3, -3, 3, -3] (1 / 3) = .ok ([0, 0, 0, 0, 0, 0, 0, 0] : List ℚ) := by decide +kernel

/-! ## The derivative -/

theorem pade6_solves {vec : List K} {h : K} {x : List K} (hx : pade6 vec h = .ok x) :
    x.length = vec.length ∧ h ≠ 0 ∧ SolvesTridiagonal (pade6A vec.length) (fun _ => lit 1) (pade6C vec.length)
      (pade6Rhs (fun i => vec.getD i 0) h vec.length) vec.length (fun i => x.getD i 0) := by
  unfold pade6 at hx
  split at hx
  · cases hx
  · split at hx
    · cases hx
    · rename_i hh
      rw [lit_zero] at hx hh
      obtain ⟨h1, h2⟩ := tdma_solves _ _ _ _ _ _ hx
      exact ⟨h1, by simpa using hh, h2⟩

theorem pade6_unique {vec : List K} {h : K} (hh : h ≠ 0) (hn : 7 ≤ vec.length) {y : ℕ → K}
    (hy : SolvesTridiagonal (pade6A vec.length) (fun _ => lit 1) (pade6C vec.length)
      (pade6Rhs (fun i => vec.getD i 0) h vec.length) vec.length y) : pade6 vec h = .ok (samples vec.length y) := by
  obtain ⟨x, hx⟩ := tdma_total (pade6A (α := K) vec.length) (fun _ => lit 1) (pade6C vec.length)
    (pade6Rhs (fun i => vec.getD i (lit 0)) h vec.length) vec.length (by omega) (pade6_pivots _ hn)
  unfold pade6
  rw [if_neg (by omega), if_neg (by simpa using hh), hx]
  rw [lit_zero] at hx
  rw [tdma_unique _ _ _ _ _ _ hx y hy]
  rfl

theorem samples_getD_eq (x : List K) : samples x.length (fun i => x.getD i 0) = x := by
  apply List.ext_getElem
  · simp [samples]
  · intro i h1 h2
    simp [samples, List.getD, h2]

/-- **C87** (linear) The derivative of a linear combination is the linear combination of the derivatives. -/
theorem C87_linear (h : K) (hh : h ≠ 0) (f g : List K) (hn : 7 ≤ f.length) (hl : g.length = f.length) (s t : K) :
    ∃ x y, pade6 f h = .ok x ∧ pade6 g h = .ok y ∧
      pade6 (List.zipWith (fun a b => s * a + t * b) f g) h = .ok (List.zipWith (fun a b => s * a + t * b) x y) := by
  have hz : (List.zipWith (fun a b => s * a + t * b) f g).length = f.length := by simp [hl]
  obtain ⟨x, hx⟩ := tdma_total (pade6A (α := K) f.length) (fun _ => lit 1) (pade6C f.length)
    (pade6Rhs (fun i => f.getD i (lit 0)) h f.length) f.length (by omega) (pade6_pivots _ hn)
  obtain ⟨y, hy⟩ := tdma_total (pade6A (α := K) g.length) (fun _ => lit 1) (pade6C g.length)
    (pade6Rhs (fun i => g.getD i (lit 0)) h g.length) g.length (by omega) (pade6_pivots _ (by omega))
  have hx' : pade6 f h = .ok x := by unfold pade6; rw [if_neg (by omega), if_neg (by simpa using hh), hx]
  have hy' : pade6 g h = .ok y := by unfold pade6; rw [if_neg (by omega), if_neg (by simpa using hh), hy]
  obtain ⟨lx, -, sx⟩ := pade6_solves hx'
  obtain ⟨ly, -, sy⟩ := pade6_solves hy'
  refine ⟨x, y, hx', hy', ?_⟩
  rw [pade6_unique hh (hz ▸ hn) (y := fun i => s * x.getD i 0 + t * y.getD i 0)]
  · congr 1
    apply List.ext_getElem
    · simp [samples, lx, ly, hl]
    · intro i h1 h2
      have hi : i < f.length := by simpa [samples, hl] using h1
      simp [samples, List.getD, lx, ly, hl, hi]
  · rw [hz]
    rw [hl] at sy
    intro i hi
    have h1 := sx i hi
    have h2 := sy i hi
    have e : pade6Rhs (fun i => (List.zipWith (fun a b => s * a + t * b) f g).getD i 0) h f.length i =
        s * pade6Rhs (fun i => f.getD i 0) h f.length i + t * pade6Rhs (fun i => g.getD i 0) h f.length i := by
      rw [pade6Rhs_congr _ (fun i => s * f.getD i 0 + t * g.getD i 0) _ _ (by omega) _ i hi]
      · unfold pade6Rhs
        simp only [lit_eq]
        split_ifs <;> ring
      · intro j hj
        simp [List.getD, hl, hj]
    rw [e, ← h1, ← h2]
    simp only
    split_ifs <;> ring

section DerivRows
variable (v : ℕ → K) (h : K) (n : ℕ)

theorem pade6Rhs_last1 (i : ℕ) (hi : i = n - 2) : pade6Rhs v h n i =
    (lit (20 / 33) * v (n - 1) + lit (35 / 132) * v (n - 2) + lit (-34 / 33) * v (n - 3) + lit (7 / 33) * v (n - 4)
    + lit (-2 / 33) * v (n - 5) + lit (1 / 132) * v (n - 6)) / h := by
  unfold pade6Rhs
  dsimp only
  rw [if_pos hi]

theorem pade6Rhs_last0 (hn : 7 ≤ n) (i : ℕ) (hi : i = n - 1) : pade6Rhs v h n i =
    (lit (197 / 60) * v (n - 1) + lit (5 / 12) * v (n - 2) + lit (-5) * v (n - 3) + lit (5 / 3) * v (n - 4)
    + lit (-5 / 12) * v (n - 5) + lit (1 / 20) * v (n - 6)) / h := by
  unfold pade6Rhs
  dsimp only
  rw [if_neg (by omega), if_pos hi]

theorem pade6Rhs_first1 (hn : 7 ≤ n) : pade6Rhs v h n 1 =
    (lit (-20 / 33) * v 0 + lit (-35 / 132) * v 1 + lit (34 / 33) * v 2 + lit (-7 / 33) * v 3
    + lit (2 / 33) * v 4 + lit (-1 / 132) * v 5) / h := by
  unfold pade6Rhs
  dsimp only
  rw [if_neg (by omega), if_neg (by omega), if_pos rfl]

theorem pade6Rhs_first0 (hn : 7 ≤ n) : pade6Rhs v h n 0 =
    (lit (-197 / 60) * v 0 + lit (-5 / 12) * v 1 + lit 5 * v 2 + lit (-5 / 3) * v 3
    + lit (5 / 12) * v 4 + lit (-1 / 20) * v 5) / h := by
  unfold pade6Rhs
  dsimp only
  rw [if_neg (by omega), if_neg (by omega), if_neg (by omega), if_pos rfl]

theorem pade6Rhs_mid (i : ℕ) (h1 : 2 ≤ i) (h2 : i + 2 < n) : pade6Rhs v h n i =
    (v (i + 1) - v (i - 1)) * (lit (14 / 18) / h) + (v (i + 2) - v (i - 2)) * (lit (1 / 36) / h) := by
  unfold pade6Rhs
  dsimp only
  rw [if_neg (by omega), if_neg (by omega), if_neg (by omega), if_neg (by omega)]

end DerivRows

theorem pade6Rhs_reverse (f : ℕ → K) (h : K) (n : ℕ) (hn : 7 ≤ n) (i : ℕ) (hi : i < n) :
    pade6Rhs (fun j => f (n - 1 - j)) h n i = - pade6Rhs f h n (n - 1 - i) := by
  have q0 : n - 1 - (n - 1) = 0 := by omega
  have q1 : n - 1 - (n - 2) = 1 := by omega
  have q2 : n - 1 - (n - 3) = 2 := by omega
  have q3 : n - 1 - (n - 4) = 3 := by omega
  have q4 : n - 1 - (n - 5) = 4 := by omega
  have q5 : n - 1 - (n - 6) = 5 := by omega
  have r0 : n - 1 - 0 = n - 1 := by omega
  have r1 : n - 1 - 1 = n - 2 := by omega
  have r2 : n - 1 - 2 = n - 3 := by omega
  have r3 : n - 1 - 3 = n - 4 := by omega
  have r4 : n - 1 - 4 = n - 5 := by omega
  have r5 : n - 1 - 5 = n - 6 := by omega
  by_cases b0 : i = 0
  · subst b0
    rw [pade6Rhs_first0 _ _ _ hn, pade6Rhs_last0 _ _ _ hn (n - 1 - 0) r0]
    simp only [r0, r1, r2, r3, r4, r5, lit_eq]
    push_cast; ring
  by_cases b1 : i = 1
  · subst b1
    rw [pade6Rhs_first1 _ _ _ hn, pade6Rhs_last1 _ _ _ (n - 1 - 1) r1]
    simp only [r0, r1, r2, r3, r4, r5, lit_eq]
    push_cast; ring
  by_cases b2 : i = n - 1
  · subst b2
    rw [q0, pade6Rhs_first0 _ _ _ hn, pade6Rhs_last0 _ _ _ hn _ rfl]
    simp only [q0, q1, q2, q3, q4, q5, lit_eq]
    push_cast; ring
  by_cases b3 : i = n - 2
  · subst b3
    rw [q1, pade6Rhs_first1 _ _ _ hn, pade6Rhs_last1 _ _ _ _ rfl]
    simp only [q0, q1, q2, q3, q4, q5, lit_eq]
    push_cast; ring
  · rw [pade6Rhs_mid _ _ _ i (by omega) (by omega), pade6Rhs_mid _ _ _ (n - 1 - i) (by omega) (by omega)]
    rw [show n - 1 - (i + 1) = n - 1 - i - 1 by omega, show n - 1 - (i - 1) = n - 1 - i + 1 by omega,
      show n - 1 - (i + 2) = n - 1 - i - 2 by omega, show n - 1 - (i - 2) = n - 1 - i + 2 by omega]
    ring

/-- **C87** (direction) The derivative of the reversed signal is the negated, reversed derivative. -/
theorem C87_reverse (h : K) (hh : h ≠ 0) (f : List K) (hn : 7 ≤ f.length) :
    ∃ x, pade6 f h = .ok x ∧ pade6 f.reverse h = .ok (x.reverse.map (fun v => -v)) := by
  obtain ⟨x, hx⟩ := tdma_total (pade6A (α := K) f.length) (fun _ => lit 1) (pade6C f.length)
    (pade6Rhs (fun i => f.getD i (lit 0)) h f.length) f.length (by omega) (pade6_pivots _ hn)
  have hx' : pade6 f h = .ok x := by unfold pade6; rw [if_neg (by omega), if_neg (by simpa using hh), hx]
  obtain ⟨lx, -, sx⟩ := pade6_solves hx'
  refine ⟨x, hx', ?_⟩
  rw [pade6_unique hh (by simpa using hn) (y := fun i => -x.getD (f.length - 1 - i) 0)]
  · congr 1
    apply List.ext_getElem
    · simp [samples, lx]
    · intro i h1 h2
      have hi : i < f.length := by simpa [samples] using h1
      simp [samples, List.getD, lx, show f.length - 1 - i < f.length by omega]
  · rw [List.length_reverse]
    have neg : SolvesTridiagonal (pade6A f.length) (fun _ => lit 1) (pade6C f.length)
        (fun i => - pade6Rhs (fun i => f.getD i 0) h f.length i) f.length (fun i => - x.getD i 0) := by
      intro i hi
      dsimp only
      rw [← sx i hi]
      dsimp only
      split_ifs <;> ring
    refine solves_reverse (fun _ _ => rfl) ?_ ?_ ?_ neg
    · intro i hi h0
      unfold pade6A pade6C
      by_cases b1 : i = f.length - 2
      · rw [if_pos b1, if_neg (by omega), if_pos (by omega)]
      · rw [if_neg b1]
        by_cases b2 : i = f.length - 1
        · rw [if_pos b2, if_neg (by omega), if_neg (by omega), if_pos (by omega)]
        · rw [if_neg b2]
          by_cases b3 : i = 1
          · rw [if_pos b3, if_pos (by omega)]
          · rw [if_neg b3, if_neg (by omega), if_neg (by omega), if_neg (by omega)]
    · intro i hi
      unfold pade6A pade6C
      by_cases b1 : i = f.length - 2
      · rw [if_pos b1, if_neg (by omega), if_neg (by omega), if_pos (by omega)]
      · rw [if_neg b1]
        by_cases b2 : i = 1
        · rw [if_pos b2, if_pos (by omega)]
        · rw [if_neg b2]
          by_cases b3 : i = 0
          · rw [if_pos b3, if_neg (by omega), if_pos (by omega)]
          · rw [if_neg b3, if_neg (by omega), if_neg (by omega), if_neg (by omega)]
    · intro i hi
      rw [← pade6Rhs_reverse _ _ _ hn i hi]
      apply pade6Rhs_congr _ _ _ _ (by omega) _ i hi
      intro j hj
      rw [getD_reverse' _ _ hj]

/-- **C87** (units) Measuring the positions in other units, `h` replaced by `c h`, divides the derivative by `c`. -/
theorem C87_units (h c : K) (hh : h ≠ 0) (hc : c ≠ 0) (f : List K) (hn : 7 ≤ f.length) :
    ∃ x, pade6 f h = .ok x ∧ pade6 f (c * h) = .ok (x.map (fun v => v / c)) := by
  obtain ⟨x, hx⟩ := tdma_total (pade6A (α := K) f.length) (fun _ => lit 1) (pade6C f.length)
    (pade6Rhs (fun i => f.getD i (lit 0)) h f.length) f.length (by omega) (pade6_pivots _ hn)
  have hx' : pade6 f h = .ok x := by unfold pade6; rw [if_neg (by omega), if_neg (by simpa using hh), hx]
  obtain ⟨lx, -, sx⟩ := pade6_solves hx'
  refine ⟨x, hx', ?_⟩
  rw [pade6_unique (mul_ne_zero hc hh) hn (y := fun i => x.getD i 0 / c)]
  · congr 1
    apply List.ext_getElem
    · simp [samples, lx]
    · intro i h1 h2
      have hi : i < f.length := by simpa [samples] using h1
      simp [samples, List.getD, lx, hi]
  · intro i hi
    have e : pade6Rhs (fun i => f.getD i 0) (c * h) f.length i = pade6Rhs (fun i => f.getD i 0) h f.length i / c := by
      unfold pade6Rhs
      simp only [lit_eq]
      split_ifs <;> field_simp
    rw [e, ← sx i hi]
    simp only
    split_ifs <;> ring

example : pade6 [0, 1, 32, 243, 1024, 3125, 7776, 16807] 1 = .ok ([0, 5, 80, 405, 1280, 3125, 6480, 12005] : List ℚ) ∧
    pade6 [16807, 7776, 3125, 1024, 243, 32, 1, 0] 1 = .ok ([-12005, -6480, -3125, -1280, -405, -80, -5, 0] : List ℚ) ∧
    pade6 [0, 1, 32, 243, 1024, 3125, 7776, 16807] 5 = .ok ([0, 1, 16, 81, 256, 625, 1296, 2401] : List ℚ) := by
  decide +kernel

end Compact
end PyEMD
