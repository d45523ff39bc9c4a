import Verif.Lemmas.Exact
import Verif.Spec.Spline
import Verif.Spec.Samples
import Mathlib.Tactic.LinearCombination

/-!
# The three-point spline (C24)
-/

set_option linter.unusedSectionVars false

namespace PyEMD
open Spec

variable {K : Type} [Field K] [LinearOrder K] [IsStrictOrderedRing K] [FloorRing K]

/-- The cubic `e0 + e1 u + e2 u² + e3 u³` with `u = (t - x) / h`. -/
def localCubic (x h e0 e1 e2 e3 : K) : Cubic K where
  c0 := e0 - e1 * (x * h⁻¹) + e2 * (x * h⁻¹) ^ 2 - e3 * (x * h⁻¹) ^ 3
  c1 := e1 * h⁻¹ - 2 * e2 * (x * h⁻¹) * h⁻¹ + 3 * e3 * (x * h⁻¹) ^ 2 * h⁻¹
  c2 := e2 * h⁻¹ ^ 2 - 3 * e3 * (x * h⁻¹) * h⁻¹ ^ 2
  c3 := e3 * h⁻¹ ^ 3

theorem localCubic_val (x h e0 e1 e2 e3 t : K) : (localCubic x h e0 e1 e2 e3).val t =
    e0 + e1 * ((t - x) / h) + e2 * ((t - x) / h) ^ 2 + e3 * ((t - x) / h) ^ 3 := by
  simp only [localCubic, Cubic.val, div_eq_mul_inv]; ring

theorem localCubic_d1 (x h e0 e1 e2 e3 t : K) : (localCubic x h e0 e1 e2 e3).d1 t =
    (e1 + 2 * e2 * ((t - x) / h) + 3 * e3 * ((t - x) / h) ^ 2) / h := by
  simp only [localCubic, Cubic.d1, div_eq_mul_inv]; ring

theorem localCubic_d2 (x h e0 e1 e2 e3 t : K) : (localCubic x h e0 e1 e2 e3).d2 t =
    (2 * e2 + 6 * e3 * ((t - x) / h)) / h ^ 2 := by
  simp only [localCubic, Cubic.d2, div_eq_mul_inv]; ring

/-- The model's segment as a cubic. -/
def segCubic (x h ya yb a b : K) : Cubic K := localCubic x h ya (yb - ya + a) (b - 2 * a) (a - b)

theorem segCubic_val (x h ya yb a b t : K) : (segCubic x h ya yb a b).val t = spline3Seg ya yb a b ((t - x) / h) := by
  rw [segCubic, localCubic_val, spline3Seg, lit_one]; ring

/-- The linear system for the slopes has a solution. -/
theorem spline3Slopes_spec (x0 x1 x2 y0 y1 y2 : K) (h0 : x0 < x1) (h1 : x1 < x2) :
    ∃ k0 k1 k2, spline3Slopes x0 x1 x2 y0 y1 y2 = .ok (k0, k1, k2) ∧
      2 * k0 + k1 = 3 * (y1 - y0) / (x1 - x0) ∧
      k1 + 2 * k2 = 3 * (y2 - y1) / (x2 - x1) ∧
      k0 / (x1 - x0) + 2 * k1 * (1 / (x1 - x0) + 1 / (x2 - x1)) + k2 / (x2 - x1) =
        3 * (y1 - y0) / (x1 - x0) ^ 2 + 3 * (y2 - y1) / (x2 - x1) ^ 2 := by
  have hh : 0 < x1 - x0 := sub_pos.2 h0
  have hg : 0 < x2 - x1 := sub_pos.2 h1
  unfold spline3Slopes solve3
  simp only [lit_zero, lit_one, lit_two, lit_three]
  generalize x1 - x0 = h at *
  generalize x2 - x1 = g at *
  generalize y1 - y0 = u
  generalize y2 - y1 = v
  have hD : det3 (2 * (1 / h)) (1 / h) 0 (1 / h) (2 * (1 / h + 1 / g)) (1 / g) 0 (1 / g) (2 * (1 / g)) =
      6 * (g + h) / (h ^ 2 * g ^ 2) := by
    unfold det3
    field_simp
    ring
  have hD0 : 6 * (g + h) / (h ^ 2 * g ^ 2) ≠ 0 := by positivity
  have hgh : g + h ≠ 0 := by positivity
  have hbeq : (6 * (g + h) / (h ^ 2 * g ^ 2) == (0 : K)) = false := by simpa using hD0
  rw [hD]
  simp only [hbeq, Bool.false_eq_true, if_false]
  refine ⟨_, _, _, rfl, ?_, ?_, ?_⟩
  · unfold det3
    field_simp
    ring
  · unfold det3
    field_simp
    ring
  · unfold det3
    field_simp
    ring

/-- On a sorted array a range can be cut at any point. -/
theorem filter_cut (c : K) (p : K → Bool) (T : List K) (hT : T.Pairwise (· ≤ ·)) :
    T.filter p = T.filter (fun t => p t && decide (t < c)) ++ T.filter (fun t => p t && decide (c ≤ t)) := by
  induction T with
  | nil => rfl
  | cons a T ih =>
    rw [List.pairwise_cons] at hT
    by_cases hac : a < c
    · have e1 : decide (a < c) = true := decide_eq_true hac
      have e2 : decide (c ≤ a) = false := decide_eq_false (not_le.2 hac)
      simp only [List.filter_cons, e1, e2, Bool.and_true, Bool.and_false, Bool.false_eq_true, if_false]
      rw [ih hT.2]
      split <;> rfl
    · have e3 : ∀ t ∈ a :: T, decide (t < c) = false := by
        intro t ht
        apply decide_eq_false
        rw [not_lt]
        rcases List.mem_cons.1 ht with rfl | ht
        · exact not_lt.1 hac
        · exact le_trans (not_lt.1 hac) (hT.1 t ht)
      have n1 : (a :: T).filter (fun t => p t && decide (t < c)) = [] := by
        rw [List.filter_eq_nil_iff]
        intro t ht
        rw [e3 t ht]; simp
      rw [n1, List.nil_append]
      apply List.filter_congr
      intro t ht
      have := e3 t ht
      rw [decide_eq_false_iff_not, not_lt] at this
      simp [this]

/-- C24: for `x0 < x1 < x2` and sorted evaluation points, `cubic_spline_3pts` returns the evaluation points inside
`[x0, x2]` and, in the same order, the values of the natural cubic spline through the three points. -/
theorem C24_natural_spline (x0 x1 x2 y0 y1 y2 : K) (h0 : x0 < x1) (h1 : x1 < x2) :
    ∃ p q, IsNatural x0 x1 x2 y0 y1 y2 p q ∧
      ∀ T : List K, T.Pairwise (· ≤ ·) →
        cubicSpline3pts [x0, x1, x2] [y0, y1, y2] T =
          .ok (T.filter (fun t => decide (x0 ≤ t) && decide (t ≤ x2)),
            (T.filter (fun t => decide (x0 ≤ t) && decide (t ≤ x2))).map (fun t => if t < x1 then p.val t else q.val t)) := by
  obtain ⟨k0, k1, k2, hk, e1, e2, e3⟩ := spline3Slopes_spec x0 x1 x2 y0 y1 y2 h0 h1
  have hh : 0 < x1 - x0 := sub_pos.2 h0
  have hg : 0 < x2 - x1 := sub_pos.2 h1
  have hh' := hh.ne'
  have hg' := hg.ne'
  refine ⟨segCubic x0 (x1 - x0) y0 y1 (k0 * (x1 - x0) - (y1 - y0)) (-k1 * (x1 - x0) + (y1 - y0)),
    segCubic x1 (x2 - x1) y1 y2 (k1 * (x2 - x1) - (y2 - y1)) (-k2 * (x2 - x1) + (y2 - y1)), ?_, ?_⟩
  · have u1 : (x1 - x0) / (x1 - x0) = 1 := div_self hh'
    have u2 : (x2 - x1) / (x2 - x1) = 1 := div_self hg'
    have u3 : (x0 - x0) / (x1 - x0) = 0 := by simp
    have u4 : (x1 - x1) / (x2 - x1) = 0 := by simp
    constructor
    · rw [segCubic, localCubic_val, u3]; ring
    · rw [segCubic, localCubic_val, u1]; ring
    · rw [segCubic, localCubic_val, u4]; ring
    · rw [segCubic, localCubic_val, u2]; ring
    · rw [segCubic, segCubic, localCubic_d1, localCubic_d1, u1, u4]
      field_simp
      ring
    · rw [segCubic, segCubic, localCubic_d2, localCubic_d2, u1, u4]
      generalize x1 - x0 = h at *
      generalize x2 - x1 = g at *
      generalize y1 - y0 = u at *
      generalize y2 - y1 = v at *
      field_simp at e1 e2 e3 ⊢
      linear_combination 2 * e3
    · rw [segCubic, localCubic_d2, u3]
      field_simp at e1 ⊢
      linear_combination (-2) * e1
    · rw [segCubic, localCubic_d2, u2]
      field_simp at e2 ⊢
      linear_combination (2) * e2
  · intro T hT
    unfold cubicSpline3pts
    simp only [hk, bind, Except.bind, pure, Except.pure]
    congr 2
    have hcut := filter_cut x1 (fun t => decide (x0 ≤ t) && decide (t ≤ x2)) T hT
    conv_rhs => rw [hcut, List.map_append]
    have f1 : T.filter (fun t => decide (x0 ≤ t) && decide (t < x1)) =
        T.filter (fun t => (decide (x0 ≤ t) && decide (t ≤ x2)) && decide (t < x1)) := by
      apply List.filter_congr
      intro t _
      rw [Bool.eq_iff_iff]
      simp only [Bool.and_eq_true, decide_eq_true_eq]
      constructor
      · rintro ⟨a, b⟩; exact ⟨⟨a, (b.trans h1).le⟩, b⟩
      · rintro ⟨⟨a, -⟩, b⟩; exact ⟨a, b⟩
    have f2 : T.filter (fun t => decide (x1 ≤ t) && decide (t ≤ x2)) =
        T.filter (fun t => (decide (x0 ≤ t) && decide (t ≤ x2)) && decide (x1 ≤ t)) := by
      apply List.filter_congr
      intro t _
      rw [Bool.eq_iff_iff]
      simp only [Bool.and_eq_true, decide_eq_true_eq]
      constructor
      · rintro ⟨a, b⟩; exact ⟨⟨h0.le.trans a, b⟩, a⟩
      · rintro ⟨⟨-, a⟩, b⟩; exact ⟨b, a⟩
    rw [f1, f2, List.map_map, List.map_map]
    congr 1
    · apply List.map_congr_left
      intro t ht
      have := (List.mem_filter.1 ht).2
      simp only [Bool.and_eq_true, decide_eq_true_eq] at this
      rw [if_pos this.2, segCubic_val]; rfl
    · apply List.map_congr_left
      intro t ht
      have := (List.mem_filter.1 ht).2
      simp only [Bool.and_eq_true, decide_eq_true_eq] at this
      rw [if_neg (not_lt.2 this.2), segCubic_val]; rfl

theorem Spec.IsNatural.zero {x0 x1 x2 : K} (h0 : x0 < x1) (h1 : x1 < x2) {p q : Cubic K}
    (h : IsNatural x0 x1 x2 0 0 0 p q) (t : K) : p.val t = 0 ∧ q.val t = 0 := by
  have hh : 0 < x1 - x0 := sub_pos.2 h0
  have hg : 0 < x2 - x1 := sub_pos.2 h1
  obtain ⟨v0, v1, v1', v2, s1, s2, n0, n2⟩ := h
  simp only [Cubic.val, Cubic.d1, Cubic.d2] at *
  -- second derivatives at the ends
  have c2 : p.c2 = -3 * p.c3 * x0 := by linear_combination (1 / 2) * n0
  have d2 : q.c2 = -3 * q.c3 * x2 := by linear_combination (1 / 2) * n2
  rw [c2] at v0 v1 s1 s2
  rw [d2] at v1' v2 s1 s2
  have s2' : p.c3 * (x1 - x0) = - (q.c3 * (x2 - x1)) := by linear_combination (1 / 6) * s2
  have c1 : p.c1 = 3 * p.c3 * x0 ^ 2 - p.c3 * (x1 - x0) ^ 2 := by
    apply mul_right_cancel₀ hh.ne'
    linear_combination v1 - v0
  have d1 : q.c1 = 3 * q.c3 * x2 ^ 2 - q.c3 * (x2 - x1) ^ 2 := by
    apply mul_right_cancel₀ hg.ne'
    linear_combination v2 - v1'
  rw [c1, d1] at s1
  have hq : q.c3 = 0 := by
    have : q.c3 * ((x2 - x1) * ((x2 - x1) + (x1 - x0))) = 0 := by
      linear_combination (-1 / 2) * s1 + (x1 - x0) * s2'
    rcases mul_eq_zero.1 this with h | h
    · exact h
    · exfalso
      have : 0 < (x2 - x1) * ((x2 - x1) + (x1 - x0)) := by positivity
      exact this.ne' h
  have hp : p.c3 = 0 := by
    rw [hq] at s2'
    apply mul_right_cancel₀ hh.ne'
    linear_combination s2'
  rw [hp] at c1 c2 v0
  rw [hq] at d1 d2 v2
  rw [c1] at v0
  rw [d1] at v2
  constructor
  · rw [c1, c2, hp]; linear_combination v0
  · rw [d1, d2, hq]; linear_combination v2

/-- The natural spline is unique. -/
theorem Spec.IsNatural.unique {x0 x1 x2 y0 y1 y2 : K} (h0 : x0 < x1) (h1 : x1 < x2) {p q p' q' : Cubic K}
    (h : IsNatural x0 x1 x2 y0 y1 y2 p q) (h' : IsNatural x0 x1 x2 y0 y1 y2 p' q') (t : K) :
    p.val t = p'.val t ∧ q.val t = q'.val t := by
  have := Spec.IsNatural.zero (p := ⟨p.c0 - p'.c0, p.c1 - p'.c1, p.c2 - p'.c2, p.c3 - p'.c3⟩)
    (q := ⟨q.c0 - q'.c0, q.c1 - q'.c1, q.c2 - q'.c2, q.c3 - q'.c3⟩) h0 h1 ?_ t
  · simp only [Cubic.val] at *
    exact ⟨by linear_combination this.1, by linear_combination this.2⟩
  · obtain ⟨v0, v1, v1', v2, s1, s2, n0, n2⟩ := h
    obtain ⟨w0, w1, w1', w2, r1, r2, m0, m2⟩ := h'
    simp only [Cubic.val, Cubic.d1, Cubic.d2] at *
    constructor <;> simp only [Cubic.val, Cubic.d1, Cubic.d2]
    · linear_combination v0 - w0
    · linear_combination v1 - w1
    · linear_combination v1' - w1'
    · linear_combination v2 - w2
    · linear_combination s1 - r1
    · linear_combination s2 - r2
    · linear_combination n0 - m0
    · linear_combination n2 - m2

/-- C24: straight lines are reproduced. -/
theorem C24_reproduces_lines (x0 x1 x2 c d : K) (h0 : x0 < x1) (h1 : x1 < x2) (T : List K) (hT : T.Pairwise (· ≤ ·)) :
    cubicSpline3pts [x0, x1, x2] [c * x0 + d, c * x1 + d, c * x2 + d] T =
      .ok (T.filter (fun t => decide (x0 ≤ t) && decide (t ≤ x2)),
        (T.filter (fun t => decide (x0 ≤ t) && decide (t ≤ x2))).map (fun t => c * t + d)) := by
  obtain ⟨p, q, hn, h⟩ := C24_natural_spline x0 x1 x2 (c * x0 + d) (c * x1 + d) (c * x2 + d) h0 h1
  rw [h T hT]
  congr 2
  apply List.map_congr_left
  intro t _
  have hl : IsNatural x0 x1 x2 (c * x0 + d) (c * x1 + d) (c * x2 + d) ⟨d, c, 0, 0⟩ ⟨d, c, 0, 0⟩ := by
    constructor <;> simp only [Cubic.val, Cubic.d1, Cubic.d2] <;> ring
  have hu := hn.unique h0 h1 hl t
  split
  · rw [hu.1]; simp only [Cubic.val]; ring
  · rw [hu.2]; simp only [Cubic.val]; ring

/-- C24: the result is linear in the ordinates. -/
theorem C24_linear (x0 x1 x2 y0 y1 y2 z0 z1 z2 a b : K) (h0 : x0 < x1) (h1 : x1 < x2) (T : List K) (hT : T.Pairwise (· ≤ ·)) :
    ∃ t q r, cubicSpline3pts [x0, x1, x2] [y0, y1, y2] T = .ok (t, q) ∧
      cubicSpline3pts [x0, x1, x2] [z0, z1, z2] T = .ok (t, r) ∧
      cubicSpline3pts [x0, x1, x2] [a * y0 + b * z0, a * y1 + b * z1, a * y2 + b * z2] T =
        .ok (t, List.zipWith (fun u v => a * u + b * v) q r) := by
  obtain ⟨p, q, hn, h⟩ := C24_natural_spline x0 x1 x2 y0 y1 y2 h0 h1
  obtain ⟨p', q', hn', h'⟩ := C24_natural_spline x0 x1 x2 z0 z1 z2 h0 h1
  obtain ⟨p'', q'', hn'', h''⟩ := C24_natural_spline x0 x1 x2 (a * y0 + b * z0) (a * y1 + b * z1) (a * y2 + b * z2) h0 h1
  refine ⟨_, _, _, h T hT, h' T hT, ?_⟩
  rw [h'' T hT, List.zipWith_map, List.zipWith_self]
  congr 2
  apply List.map_congr_left
  intro t _
  have hl : IsNatural x0 x1 x2 (a * y0 + b * z0) (a * y1 + b * z1) (a * y2 + b * z2)
      ⟨a * p.c0 + b * p'.c0, a * p.c1 + b * p'.c1, a * p.c2 + b * p'.c2, a * p.c3 + b * p'.c3⟩
      ⟨a * q.c0 + b * q'.c0, a * q.c1 + b * q'.c1, a * q.c2 + b * q'.c2, a * q.c3 + b * q'.c3⟩ := by
    obtain ⟨v0, v1, v1', v2, s1, s2, n0, n2⟩ := hn
    obtain ⟨w0, w1, w1', w2, r1, r2, m0, m2⟩ := hn'
    simp only [Cubic.val, Cubic.d1, Cubic.d2] at *
    constructor <;> simp only [Cubic.val, Cubic.d1, Cubic.d2]
    · linear_combination a * v0 + b * w0
    · linear_combination a * v1 + b * w1
    · linear_combination a * v1' + b * w1'
    · linear_combination a * v2 + b * w2
    · linear_combination a * s1 + b * r1
    · linear_combination a * s2 + b * r2
    · linear_combination a * n0 + b * m0
    · linear_combination a * n2 + b * m2
  have hu := hn''.unique h0 h1 hl t
  split
  · rw [hu.1]; simp only [Cubic.val]; ring
  · rw [hu.2]; simp only [Cubic.val]; ring

/-- A spline that is not a straight line. -/
example : okWith (fun r : List ℚ × List ℚ => decide (r = ([0, 1 / 2, 1, 2, 3], [0, 19 / 32, 1, 7 / 8, 0])))
    (cubicSpline3pts [0, 1, 3] [0, 1, 0] ([-1, 0, 1 / 2, 1, 2, 3, 4] : List ℚ)) = true := by decide +kernel

end PyEMD
