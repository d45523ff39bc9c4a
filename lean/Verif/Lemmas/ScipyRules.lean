import Verif.Lemmas.ScipySlopes
import Verif.Spec.Scipy
import Verif.Spec.Affine
import Verif.Spec.Reversal

/-!
# The interpolators as cubic pieces with given slopes
-/

set_option linter.unusedSectionVars false

namespace PyEMD
namespace Scipy
open EMD.Spec PyEMD.Spec

variable {K : Type} [Field K] [LinearOrder K] [IsStrictOrderedRing K] [FloorRing K]

/-- Rules for slopes: knots, values, number of knots, index. -/
abbrev SlopeRule (K : Type) := (Nat → K) → (Nat → K) → Nat → Nat → K

/-- Cubic pieces with slopes given by a rule. -/
def viaSlopes (least : Nat) (sl : SlopeRule K) : Interp K := fun X Y t =>
  if refuses least X Y then none
  else some (t.map (cubicAt (entry X) (entry Y) (sl (entry X) (entry Y) X.length) X.length))

/-- What the rules have in common. -/
structure Rule (least : Nat) (sl : SlopeRule K) : Prop where
  two : 2 ≤ least
  scaled : ∀ {n : Nat} {a r : K} {x y x' y' : Nat → K}, Scaled n a r x y x' y' → 0 < a → r ≠ 0 → Incr n x → Incr n x' → least ≤ n →
    ∀ i < n, sl x' y' n i = r * sl x y n i
  rev : ∀ {n : Nat} {x y x' y' : Nat → K}, Rev n x y x' y' → Incr n x → Incr n x' → least ≤ n →
    ∀ i < n, sl x' y' n i = -sl x y n (n - 1 - i)
  line : ∀ {n : Nat} {x y : Nat → K} {m : K}, Incr n x → least ≤ n → (∀ i, i + 1 < n → secant x y i = m) →
    ∀ i < n, sl x y n i = m

/-- The slopes of the cubic spline as a rule. -/
def cubicRule : SlopeRule K := fun x y n => entry (match cubicSlopes x y n with | .ok d => d | .error _ => [])

theorem akima_eq : (akima : Interp K) = viaSlopes 3 akimaSlope := rfl
theorem cubicHermite_eq : (cubicHermite : Interp K) = viaSlopes 2 gradient := rfl
theorem pchip_eq : (pchip : Interp K) = viaSlopes 2 pchipSlope := rfl

theorem cubic_eq : (cubic : Interp K) = viaSlopes 3 cubicRule := by
  funext X Y t
  unfold cubic viaSlopes
  by_cases h : refuses 3 X Y = true
  · rw [if_pos h, if_pos h]
  · rw [if_neg h, if_neg h]
    rw [Bool.not_eq_true, refuses_iff] at h
    obtain ⟨s, hs⟩ := cubicSlopes_total (incr_entry h.2.2) h.1 (entry Y)
    simp only [cubicRule, hs]

/-! ### The four rules -/

theorem akima_rule : Rule 3 (akimaSlope : SlopeRule K) where
  two := by omega
  scaled := fun h _ hr _ _ hn i hi => akimaSlope_scaled h hr hn i hi
  rev := fun h _ _ hn i hi => akimaSlope_rev h hn i hi
  line := by
    intro n x y m hx hn hm i hi
    have hM : ∀ j < n + 3, akimaM x y n j = m := by
      intro j hj
      unfold akimaM
      simp only [lit_two, hm 0 (by omega), hm 1 (by omega), hm (n - 2) (by omega), hm (n - 3) (by omega)]
      split_ifs
      · ring
      · ring
      · ring
      · ring
      · exact hm _ (by omega)
    have hF : ∀ j < n, akimaF1 x y n j + akimaF2 x y n j = 0 := by
      intro j hj
      unfold akimaF1 akimaF2
      rw [hM _ (by omega), hM _ (by omega), hM _ (by omega), hM _ (by omega), pyAbs_eq]
      simp
    have hne : (List.range n).map (fun j => akimaF1 x y n j + akimaF2 x y n j) ≠ [] := by
      simp; omega
    have hmax : npMax ((List.range n).map (fun j => akimaF1 x y n j + akimaF2 x y n j)) = 0 := by
      have := (npMax_spec hne).1
      rw [List.mem_map] at this
      obtain ⟨j, hj, e⟩ := this
      rw [← e, hF j (List.mem_range.1 hj)]
    unfold akimaSlope
    simp only [hmax, hF i hi, mul_zero, lt_irrefl, if_false]
    rw [hM _ (by omega), hM _ (by omega), lit_eq]
    push_cast
    ring

theorem gradient_rule : Rule 2 (gradient : SlopeRule K) where
  two := by omega
  scaled := fun h ha _ hx hx' hn i hi => gradient_scaled h ha hx hx' hn i hi
  rev := fun h hx hx' hn i hi => gradient_rev h hx hx' hn i hi
  line := by
    intro n x y m hx hn hm i hi
    by_cases h0 : i = 0
    · subst h0; simp [gradient, hm 0 (by omega)]
    by_cases h1 : i = n - 1
    · unfold gradient; rw [if_neg h0, if_pos h1, hm _ (by omega)]
    · rw [gradient_mid x y n i hx (by omega) (by omega), hm _ (by omega), hm _ (by omega)]
      have := hx.dx_pos (i := i) (by omega)
      have := hx.dx_pos (i := i - 1) (by omega)
      field_simp
      ring

theorem pchipEnd_line {h0 h1 : K} (p0 : 0 < h0) (p1 : 0 < h1) (m : K) : pchipEnd h0 h1 m m = m := by
  have e : ((lit 2 * h0 + h1) * m - h0 * m) / (h0 + h1) = m := by
    rw [lit_two]; field_simp; ring
  unfold pchipEnd
  simp only [e]
  simp

theorem pchip_rule : Rule 2 (pchipSlope : SlopeRule K) where
  two := by omega
  scaled := fun h ha hr hx _ hn i hi => pchipSlope_scaled h ha hr hx hn i hi
  rev := fun h _ _ hn i hi => pchipSlope_rev h hn i hi
  line := by
    intro n x y m hx hn hm i hi
    unfold pchipSlope
    by_cases h2 : n = 2
    · rw [if_pos h2, hm _ (by omega)]
    rw [if_neg h2]
    by_cases h0 : i = 0
    · rw [if_pos h0, hm _ (by omega), hm _ (by omega), pchipEnd_line (hx.dx_pos (by omega)) (hx.dx_pos (by omega))]
    rw [if_neg h0]
    by_cases h1 : i = n - 1
    · rw [if_pos h1, hm _ (by omega), hm _ (by omega), pchipEnd_line (hx.dx_pos (by omega)) (hx.dx_pos (by omega))]
    rw [if_neg h1]
    simp only [hm (i - 1) (by omega), hm i (by omega), lit_zero, lit_one, lit_two]
    have p1 := hx.dx_pos (i := i) (by omega)
    have p0 := hx.dx_pos (i := i - 1) (by omega)
    by_cases hz : m = 0
    · subst hz; simp
    · rw [if_neg (by simp [hz])]
      field_simp

theorem cubic_rule : Rule 3 (cubicRule : SlopeRule K) where
  two := by omega
  scaled := by
    intro n a r x y x' y' h ha hr hx hx' hn i hi
    obtain ⟨s, hs⟩ := cubicSlopes_total hx hn y
    obtain ⟨s', hs'⟩ := cubicSlopes_total hx' hn y'
    simp only [cubicRule, hs, hs']
    exact cubicSlopes_scaled h ha hx hx' hn hs hs' i hi
  rev := by
    intro n x y x' y' h hx hx' hn i hi
    obtain ⟨s, hs⟩ := cubicSlopes_total hx hn y
    obtain ⟨s', hs'⟩ := cubicSlopes_total hx' hn y'
    simp only [cubicRule, hs, hs']
    exact cubicSlopes_rev h hn hs hs' i hi
  line := by
    intro n x y m hx hn hm i hi
    obtain ⟨s, hs⟩ := cubicSlopes_total hx hn y
    simp only [cubicRule, hs]
    refine cubicSlopes_unique hs (z := fun _ => m) ?_ i hi
    intro j hj
    unfold cubicA cubicB cubicC cubicD
    simp only [lit_one, lit_two, lit_three]
    by_cases h3 : n = 3
    · subst h3
      have e0 := hm 0 (by omega)
      have e1 := hm 1 (by omega)
      interval_cases j <;> simp [e0, e1] <;> ring
    · have e0 := hm 0 (by omega)
      have e1 := hm 1 (by omega)
      have e2 := hm (n - 2) (by omega)
      have e3 := hm (n - 3) (by omega)
      simp only [if_neg h3, e0, e1, e2, e3]
      by_cases hj0 : j = 0
      · subst hj0
        have p0 := hx.dx_pos (i := 0) (by omega)
        have p1 := hx.dx_pos (i := 1) (by omega)
        have e := step2 x 0
        simp only [zero_add] at e
        rw [e]
        simp only [show ¬ (0 = n - 1) by omega, if_true, if_false, show 0 + 1 < n by omega, show ¬ (0 : Nat) < 0 by omega]
        field_simp
        ring
      · by_cases hj1 : j = n - 1
        · subst hj1
          have p0 := hx.dx_pos (i := n - 2) (by omega)
          have p1 := hx.dx_pos (i := n - 3) (by omega)
          have e := step2 x (n - 3)
          rw [show n - 3 + 2 = n - 1 by omega, show n - 3 + 1 = n - 2 by omega] at e
          rw [e]
          simp only [if_neg hj0, if_true, show ¬ (n - 1 + 1 < n) by omega, show 0 < n - 1 by omega, if_false]
          field_simp
          ring
        · simp only [if_neg hj0, if_neg hj1, hm (j - 1) (by omega), hm j (by omega), show 0 < j by omega, show j + 1 < n by omega, if_true]
          ring

end Scipy
end PyEMD
