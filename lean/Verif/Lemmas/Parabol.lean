import Verif.Spec.Parabol
import Verif.Lemmas.Points
import Mathlib.Tactic.LinearCombination
import Mathlib.Tactic.FieldSimp
import Mathlib.Tactic.Linarith

/-!
# Parabolic detection: vertices, alternation, mirroring
-/

set_option linter.unusedSectionVars false

namespace PyEMD
namespace EMD
open Spec

variable {K : Type} [Field K] [LinearOrder K] [IsStrictOrderedRing K] [FloorRing K]

/-! ## One triple -/

/-- Vertex of one triple of points. -/
structure IsVertex (Tp T0 Tn Sp S0 Sn a t v : K) : Prop where
  ex : ∃ b c, a * Tp ^ 2 + b * Tp + c = Sp ∧ a * T0 ^ 2 + b * T0 + c = S0 ∧ a * Tn ^ 2 + b * Tn + c = Sn ∧
    2 * a * t + b = 0 ∧ v = a * t ^ 2 + b * t + c
  lo : (Tp + T0) / 2 ≤ t
  hi : t < (T0 + Tn) / 2

theorem lit_quad : (lit (1 / 2) : K) = 1 / 2 ∧ (lit (-1 / 2) : K) = -1 / 2 := by
  constructor <;> rw [lit_eq] <;> norm_num

theorem parabolVertex_eq {Tp T0 Tn Sp S0 Sn : K} (h1 : Tp < T0) (h2 : T0 < Tn) (hc : (S0 - Sp) * (Tn - T0) ≠ (Sn - S0) * (T0 - Tp)) :
    ∃ a b c t, a ≠ 0 ∧ a * Tp ^ 2 + b * Tp + c = Sp ∧ a * T0 ^ 2 + b * T0 + c = S0 ∧ a * Tn ^ 2 + b * Tn + c = Sn ∧
      2 * a * t + b = 0 ∧
      parabolVertex Tp T0 Tn Sp S0 Sn = if t < (T0 + Tn) / 2 ∧ (Tp + T0) / 2 ≤ t then some (a, t, a * t ^ 2 + b * t + c) else none := by
  have e1 : T0 - Tp ≠ 0 := (sub_pos.2 h1).ne'
  have e2 : Tn - T0 ≠ 0 := (sub_pos.2 h2).ne'
  have e3 : Tn - Tp ≠ 0 := (sub_pos.2 (h1.trans h2)).ne'
  have hs : Tp * Tn * Tn + Tp * Tp * T0 + T0 * T0 * Tn - Tp * Tp * Tn - Tp * T0 * T0 - T0 * Tn * Tn =
      -((T0 - Tp) * (Tn - T0) * (Tn - Tp)) := by ring
  have hsc : -((T0 - Tp) * (Tn - T0) * (Tn - Tp)) ≠ 0 := neg_ne_zero.2 (mul_ne_zero (mul_ne_zero e1 e2) e3)
  unfold parabolVertex
  simp only
  rw [hs]
  generalize hD : -((T0 - Tp) * (Tn - T0) * (Tn - Tp)) = D at *
  have ha : ((T0 - Tn) * Sp + (Tn - Tp) * S0 + (Tp - T0) * Sn) / D ≠ 0 := by
    rw [div_ne_zero_iff]
    refine ⟨fun h => hc ?_, hsc⟩
    linear_combination h
  have hb : (((T0 - Tn) * Sp + (Tn - Tp) * S0 + (Tp - T0) * Sn) / D == lit 0) = false := by
    rw [lit_zero]
    exact beq_eq_false_iff_ne.2 ha
  rw [hb]
  simp only [Bool.false_eq_true, if_false]
  refine ⟨_, ((S0 - Sn) * (Tp * Tp) + (Sn - Sp) * (T0 * T0) + (Sp - S0) * (Tn * Tn)) / D,
    (T0 * Tn * (T0 - Tn) * Sp + Tn * Tp * (Tn - Tp) * S0 + Tp * T0 * (Tp - T0) * Sn) / D,
    lit (-1 / 2) * (((S0 - Sn) * (Tp * Tp) + (Sn - Sp) * (T0 * T0) + (Sp - S0) * (Tn * Tn)) / D) /
      (((T0 - Tn) * Sp + (Tn - Tp) * S0 + (Tp - T0) * Sn) / D), ha, ?_, ?_, ?_, ?_, ?_⟩
  · rw [div_mul_eq_mul_div, div_mul_eq_mul_div, ← add_div, ← add_div, div_eq_iff hsc, ← hD]; ring
  · rw [div_mul_eq_mul_div, div_mul_eq_mul_div, ← add_div, ← add_div, div_eq_iff hsc, ← hD]; ring
  · rw [div_mul_eq_mul_div, div_mul_eq_mul_div, ← add_div, ← add_div, div_eq_iff hsc, ← hD]; ring
  · rw [lit_quad.2]
    generalize ((T0 - Tn) * Sp + (Tn - Tp) * S0 + (Tp - T0) * Sn) / D = a at *
    generalize ((S0 - Sn) * (Tp * Tp) + (Sn - Sp) * (T0 * T0) + (Sp - S0) * (Tn * Tn)) / D = b
    field_simp
    ring
  · rw [lit_quad.1]
    generalize lit (-1 / 2) * (((S0 - Sn) * (Tp * Tp) + (Sn - Sp) * (T0 * T0) + (Sp - S0) * (Tn * Tn)) / D) /
      (((T0 - Tn) * Sp + (Tn - Tp) * S0 + (Tp - T0) * Sn) / D) = t
    rw [show T0 + 1 / 2 * (Tn - T0) = (T0 + Tn) / 2 by ring, show T0 - 1 / 2 * (T0 - Tp) = (Tp + T0) / 2 by ring]
    simp only [pow_two, mul_assoc]

theorem pos_mul_neg {c x : K} (hc : 0 < c) : c * x < 0 ↔ x < 0 :=
  ⟨fun h => by by_contra hx; exact absurd (mul_nonneg hc.le (not_lt.1 hx)) (not_le.2 h), fun h => mul_neg_of_pos_of_neg hc h⟩

theorem neg_mul_pos {c x : K} (hc : c < 0) : 0 < c * x ↔ x < 0 :=
  ⟨fun h => by by_contra hx; exact absurd (mul_nonpos_of_nonpos_of_nonneg hc.le (not_lt.1 hx)) (not_le.2 h),
    fun h => mul_pos_of_neg_of_neg hc h⟩

theorem neg_mul_neg' {c x : K} (hc : c < 0) : c * x < 0 ↔ 0 < x :=
  ⟨fun h => by by_contra hx; exact absurd (mul_nonneg_of_nonpos_of_nonpos hc.le (not_lt.1 hx)) (not_le.2 h),
    fun h => mul_neg_of_neg_of_pos hc h⟩

theorem parabolVertex_collinear {Tp T0 Tn Sp S0 Sn : K} (h1 : Tp < T0) (h2 : T0 < Tn)
    (hc : (S0 - Sp) * (Tn - T0) = (Sn - S0) * (T0 - Tp)) (hh : HarmlessTriple Tp T0 Tn Sp S0 Sn) :
    parabolVertex Tp T0 Tn Sp S0 Sn = none := by
  have hh := hh hc
  have e1 : T0 - Tp ≠ 0 := (sub_pos.2 h1).ne'
  have e2 : Tn - T0 ≠ 0 := (sub_pos.2 h2).ne'
  have e3 : Tn - Tp ≠ 0 := (sub_pos.2 (h1.trans h2)).ne'
  have hs : Tp * Tn * Tn + Tp * Tp * T0 + T0 * T0 * Tn - Tp * Tp * Tn - Tp * T0 * T0 - T0 * Tn * Tn =
      -((T0 - Tp) * (Tn - T0) * (Tn - Tp)) := by ring
  have hsc : -((T0 - Tp) * (Tn - T0) * (Tn - Tp)) ≠ 0 := neg_ne_zero.2 (mul_ne_zero (mul_ne_zero e1 e2) e3)
  unfold parabolVertex
  simp only
  rw [hs]
  have ha : ((T0 - Tn) * Sp + (Tn - Tp) * S0 + (Tp - T0) * Sn) / -((T0 - Tp) * (Tn - T0) * (Tn - Tp)) = 0 := by
    rw [show (T0 - Tn) * Sp + (Tn - Tp) * S0 + (Tp - T0) * Sn = 0 by linear_combination hc, zero_div]
  have hb : ((S0 - Sn) * (Tp * Tp) + (Sn - Sp) * (T0 * T0) + (Sp - S0) * (Tn * Tn)) / -((T0 - Tp) * (Tn - T0) * (Tn - Tp)) =
      (S0 - Sp) / (T0 - Tp) := by
    rw [div_eq_div_iff hsc e1]
    linear_combination (-(T0 - Tp) * (T0 + Tp)) * hc
  have hz : ((0 : K) == lit 0) = true := by rw [lit_zero]; exact beq_self_eq_true _
  rw [ha, hb, hz]
  simp only [if_true]
  rw [if_neg]
  rw [lit_quad.1, lit_quad.2, lit_eq]
  have : -1 / 2 * ((S0 - Sp) / (T0 - Tp)) / (((1 / 100000000000000 : ℚ)) : K) = -50000000000000 * ((S0 - Sp) / (T0 - Tp)) := by
    push_cast
    ring
  rw [this, show T0 + 1 / 2 * (Tn - T0) = (T0 + Tn) / 2 by ring, show T0 - 1 / 2 * (T0 - Tp) = (Tp + T0) / 2 by ring]
  rintro ⟨g1, g2⟩
  rcases hh with h | h
  · exact absurd g2 (not_le.2 h)
  · exact absurd g1 (not_lt.2 h)

/-- Which triples have an accepted vertex. -/
theorem parabolVertex_cases {Tp T0 Tn Sp S0 Sn : K} (h1 : Tp < T0) (h2 : T0 < Tn) (hh : HarmlessTriple Tp T0 Tn Sp S0 Sn) :
    ((Sp ≤ S0 ∧ Sn < S0) ∧ ∃ a t v, parabolVertex Tp T0 Tn Sp S0 Sn = some (a, t, v) ∧ a < 0 ∧ IsVertex Tp T0 Tn Sp S0 Sn a t v) ∨
    ((S0 ≤ Sp ∧ S0 < Sn) ∧ ∃ a t v, parabolVertex Tp T0 Tn Sp S0 Sn = some (a, t, v) ∧ 0 < a ∧ IsVertex Tp T0 Tn Sp S0 Sn a t v) ∨
    (¬ (Sp ≤ S0 ∧ Sn < S0) ∧ ¬ (S0 ≤ Sp ∧ S0 < Sn) ∧ parabolVertex Tp T0 Tn Sp S0 Sn = none) := by
  have p1 : 0 < T0 - Tp := sub_pos.2 h1
  have p2 : 0 < Tn - T0 := sub_pos.2 h2
  by_cases hc : (S0 - Sp) * (Tn - T0) = (Sn - S0) * (T0 - Tp)
  · refine .inr (.inr ⟨fun h => ?_, fun h => ?_, parabolVertex_collinear h1 h2 hc hh⟩)
    · have g1 := mul_nonneg (sub_nonneg.2 h.1) p2.le
      have g2 := mul_neg_of_neg_of_pos (sub_neg.2 h.2) p1
      linarith
    · have g1 := mul_nonneg (sub_nonneg.2 h.1) p2.le
      have g2 := mul_pos (sub_pos.2 h.2) p1
      linarith
  obtain ⟨a, b, c, t, ha, q1, q2, q3, hv, he⟩ := parabolVertex_eq h1 h2 hc
  -- slopes at the midpoints
  have m1 : S0 - Sp = (T0 - Tp) * (2 * a * ((Tp + T0) / 2 - t)) := by
    have : b = -(2 * a * t) := by linear_combination hv
    subst this
    linear_combination q1 - q2
  have m2 : Sn - S0 = (Tn - T0) * (2 * a * ((T0 + Tn) / 2 - t)) := by
    have : b = -(2 * a * t) := by linear_combination hv
    subst this
    linear_combination q2 - q3
  have s1 : 0 < S0 - Sp ↔ 0 < a * ((Tp + T0) / 2 - t) := by
    rw [m1, mul_pos_iff_of_pos_left p1, mul_assoc, mul_pos_iff_of_pos_left (by norm_num)]
  have s1' : S0 - Sp < 0 ↔ a * ((Tp + T0) / 2 - t) < 0 := by
    rw [m1, pos_mul_neg p1, mul_assoc, pos_mul_neg (by norm_num)]
  have s2 : 0 < Sn - S0 ↔ 0 < a * ((T0 + Tn) / 2 - t) := by
    rw [m2, mul_pos_iff_of_pos_left p2, mul_assoc, mul_pos_iff_of_pos_left (by norm_num)]
  have s2' : Sn - S0 < 0 ↔ a * ((T0 + Tn) / 2 - t) < 0 := by
    rw [m2, pos_mul_neg p2, mul_assoc, pos_mul_neg (by norm_num)]
  rw [sub_pos] at s1 s2
  rw [sub_neg] at s1' s2'
  rcases lt_or_gt_of_ne ha with neg | pos
  · rw [neg_mul_pos neg, sub_neg] at s1 s2
    rw [neg_mul_neg' neg, sub_pos] at s1' s2'
    by_cases hi : t < (T0 + Tn) / 2 ∧ (Tp + T0) / 2 ≤ t
    · rw [if_pos hi] at he
      exact .inl ⟨⟨not_lt.1 (fun h => absurd (s1'.1 h) (not_lt.2 hi.2)), s2'.2 hi.1⟩, a, t, _, he, neg,
        ⟨b, c, q1, q2, q3, hv, rfl⟩, hi.2, hi.1⟩
    · rw [if_neg hi] at he
      refine .inr (.inr ⟨fun h => hi ⟨s2'.1 h.2, not_lt.1 (fun h' => absurd (s1'.2 h') (not_lt.2 h.1))⟩, fun h => ?_, he⟩)
      have g2 := s2.1 h.2
      have g1 : t ≤ (Tp + T0) / 2 := not_lt.1 (fun h' => absurd (s1.2 h') (not_lt.2 h.1))
      linarith
  · rw [mul_pos_iff_of_pos_left pos, sub_pos] at s1 s2
    rw [pos_mul_neg pos, sub_neg] at s1' s2'
    by_cases hi : t < (T0 + Tn) / 2 ∧ (Tp + T0) / 2 ≤ t
    · rw [if_pos hi] at he
      exact .inr (.inl ⟨⟨not_lt.1 (fun h => absurd (s1.1 h) (not_lt.2 hi.2)), s2.2 hi.1⟩, a, t, _, he, pos,
        ⟨b, c, q1, q2, q3, hv, rfl⟩, hi.2, hi.1⟩)
    · rw [if_neg hi] at he
      refine .inr (.inr ⟨fun h => ?_, fun h => hi ⟨s2.1 h.2, not_lt.1 (fun h' => absurd (s1.2 h') (not_lt.2 h.1))⟩, he⟩)
      have g2 := s2'.1 h.2
      have g1 : t ≤ (Tp + T0) / 2 := not_lt.1 (fun h' => absurd (s1'.2 h') (not_lt.2 h.1))
      linarith

/-! ## All triples -/

theorem parabolVertices_eq (T S : List K) (h : T.length = S.length) :
    parabolVertices T S = (List.range (S.length - 2)).filterMap (fun i =>
      parabolVertex (sAt T i) (sAt T (i + 1)) (sAt T (i + 2)) (sAt S i) (sAt S (i + 1)) (sAt S (i + 2))) := by
  induction S generalizing T with
  | nil => match T with
    | [] => rfl
  | cons Sp S ih =>
    match T, S, h, ih with
    | [_], [], _, _ => rfl
    | [_, _], [_], _, _ => rfl
    | Tp :: T0 :: Tn :: ts, S0 :: Sn :: ss, h, ih =>
      have ih := ih (T0 :: Tn :: ts) (by simpa using h)
      have : (Sp :: S0 :: Sn :: ss).length - 2 = ((S0 :: Sn :: ss).length - 2) + 1 := by simp
      rw [this, List.range_succ_eq_map, List.filterMap_cons, List.filterMap_map, parabolVertices, ih]
      simp only [sAt, List.getD_cons_zero, List.getD_cons_succ, Function.comp_def]
      generalize parabolVertex Tp T0 Tn Sp S0 Sn = v
      cases v <;> rfl

theorem forall₂_filterMap {β γ : Type} (L : List β) (f : β → Option γ) (g : γ → Bool) (p : β → Bool) (Q : β → γ → Prop)
    (h : ∀ i ∈ L, (p i = true ∧ ∃ y, f i = some y ∧ g y = true ∧ Q i y) ∨ (p i = false ∧ ∀ y, f i = some y → g y = false)) :
    List.Forall₂ Q (L.filter p) ((L.filterMap f).filter g) := by
  induction L with
  | nil => exact .nil
  | cons i L ih =>
    have ih := ih (fun j hj => h j (List.mem_cons_of_mem _ hj))
    rcases h i (List.mem_cons_self ..) with ⟨h1, y, h2, h3, h4⟩ | ⟨h1, h2⟩
    · rw [List.filter_cons_of_pos h1, List.filterMap_cons_some h2, List.filter_cons_of_pos h3]
      exact .cons h4 ih
    · rw [List.filter_cons_of_neg (by simp [h1])]
      cases hf : f i with
      | none => rw [List.filterMap_cons_none hf]; exact ih
      | some y => rw [List.filterMap_cons_some hf, List.filter_cons_of_neg (by simp [h2 y hf])]; exact ih

theorem regular_at {T S : List K} (h : Regular T S) {i : Nat} (hT : i + 2 < T.length) (hS : i + 2 < S.length) :
    HarmlessTriple (sAt T i) (sAt T (i + 1)) (sAt T (i + 2)) (sAt S i) (sAt S (i + 1)) (sAt S (i + 2)) :=
  h i _ _ _ _ _ _ (getElem?_sAt (by omega)) (getElem?_sAt (by omega)) (getElem?_sAt hT) (getElem?_sAt (by omega))
    (getElem?_sAt (by omega)) (getElem?_sAt hS)

theorem sAt_mono {T : List K} (h : T.Pairwise (· < ·)) {i j : Nat} (hij : i < j) (hj : j < T.length) : sAt T i < sAt T j := by
  have := List.pairwise_iff_getElem.1 h i j (by omega) hj hij
  rwa [sAt, sAt, List.getD_eq_getElem?_getD, List.getD_eq_getElem?_getD, List.getElem?_eq_getElem (by omega), List.getElem?_eq_getElem hj]

theorem VertexAt.intro {T S : List K} {i : Nat} (hT : i + 2 < T.length) (hS : i + 2 < S.length) {a t v : K}
    (h : IsVertex (sAt T i) (sAt T (i + 1)) (sAt T (i + 2)) (sAt S i) (sAt S (i + 1)) (sAt S (i + 2)) a t v) :
    VertexAt T S (i + 1) a t v := by
  obtain ⟨⟨b, c, h1, h2, h3, h4, h5⟩, h6, h7⟩ := h
  exact ⟨b, c, _, _, _, _, _, _, by omega, getElem?_sAt (by omega), getElem?_sAt (by omega), getElem?_sAt hT, getElem?_sAt (by omega),
    getElem?_sAt (by omega), getElem?_sAt hS, h1, h2, h3, h4, h5, h6, h7⟩

/-- Index of a triple's middle point. -/
def triples (S : List K) (p : K → K → K → Bool) : List Nat :=
  ((List.range (S.length - 2)).filter (fun i => p (sAt S i) (sAt S (i + 1)) (sAt S (i + 2)))).map (· + 1)

theorem triples_sorted (S : List K) (p : K → K → K → Bool) : (triples S p).Pairwise (· < ·) := by
  unfold triples
  rw [List.pairwise_map]
  exact (List.pairwise_lt_range.filter _).imp (fun h => by omega)

theorem mem_triples {S : List K} {p : K → K → K → Bool} {i : Nat} : i ∈ triples S p ↔
    ∃ a b c, 1 ≤ i ∧ S[i - 1]? = some a ∧ S[i]? = some b ∧ S[i + 1]? = some c ∧ p a b c = true := by
  unfold triples
  simp only [List.mem_map, List.mem_filter, List.mem_range]
  constructor
  · rintro ⟨j, ⟨hj, hp⟩, rfl⟩
    exact ⟨_, _, _, by omega, getElem?_sAt (by omega), getElem?_sAt (by omega), getElem?_sAt (by omega), hp⟩
  · rintro ⟨a, b, c, hi, ha, hb, hc, hp⟩
    have hlt := (List.getElem?_eq_some_iff.1 hc).1
    refine ⟨i - 1, ⟨by omega, ?_⟩, by omega⟩
    have e1 : i - 1 + 1 = i := by omega
    have e2 : i - 1 + 2 = i + 1 := by omega
    rw [e1, e2]
    simp only [sAt, List.getD_eq_getElem?_getD, ha, hb, hc]
    exact hp

/-- Tests for a peak and a dip. -/
def peakTest (a b c : K) : Bool := decide (a ≤ b) && decide (c < b)
def dipTest (a b c : K) : Bool := decide (b ≤ a) && decide (b < c)

theorem peaks_forall₂ {T S : List K} (hl : T.length = S.length) (hT : T.Pairwise (· < ·)) (hr : Regular T S) :
    List.Forall₂ (fun i (q : K × K × K) => q.1 < 0 ∧ VertexAt T S i q.1 q.2.1 q.2.2) (triples S peakTest)
      ((parabolVertices T S).filter (fun v => decide (v.1 < lit 0))) := by
  rw [parabolVertices_eq T S hl]
  unfold triples
  rw [List.forall₂_map_left_iff]
  apply forall₂_filterMap
  intro i hi
  rw [List.mem_range] at hi
  rcases parabolVertex_cases (sAt_mono hT (Nat.lt_succ_self i) (by omega)) (sAt_mono hT (Nat.lt_succ_self (i + 1)) (by omega))
    (regular_at hr (i := i) (by omega) (by omega)) with ⟨h1, a, t, v, h2, h3, h4⟩ | ⟨h1, a, t, v, h2, h3, h4⟩ | ⟨h1, h1', h2⟩
  · exact .inl ⟨by simp [peakTest, h1.1, h1.2], _, h2, by simpa [lit_zero] using h3, h3, VertexAt.intro (by omega) (by omega) h4⟩
  · refine .inr ⟨by simp [peakTest]; intro _; exact h1.2.le, fun y hy => ?_⟩
    rw [h2] at hy
    obtain rfl := Option.some.inj hy
    simpa [lit_zero] using h3.le
  · refine .inr ⟨by simpa [peakTest] using h1, fun y hy => ?_⟩
    rw [h2] at hy
    cases hy

theorem dips_forall₂ {T S : List K} (hl : T.length = S.length) (hT : T.Pairwise (· < ·)) (hr : Regular T S) :
    List.Forall₂ (fun i (q : K × K × K) => 0 < q.1 ∧ VertexAt T S i q.1 q.2.1 q.2.2) (triples S dipTest)
      ((parabolVertices T S).filter (fun v => decide (lit 0 < v.1))) := by
  rw [parabolVertices_eq T S hl]
  unfold triples
  rw [List.forall₂_map_left_iff]
  apply forall₂_filterMap
  intro i hi
  rw [List.mem_range] at hi
  rcases parabolVertex_cases (sAt_mono hT (Nat.lt_succ_self i) (by omega)) (sAt_mono hT (Nat.lt_succ_self (i + 1)) (by omega))
    (regular_at hr (i := i) (by omega) (by omega)) with ⟨h1, a, t, v, h2, h3, h4⟩ | ⟨h1, a, t, v, h2, h3, h4⟩ | ⟨h1, h1', h2⟩
  · refine .inr ⟨by simp [dipTest]; intro _; exact h1.2.le, fun y hy => ?_⟩
    rw [h2] at hy
    obtain rfl := Option.some.inj hy
    simpa [lit_zero] using h3.le
  · exact .inl ⟨by simp [dipTest, h1.1, h1.2], _, h2, by simpa [lit_zero] using h3, h3, VertexAt.intro (by omega) (by omega) h4⟩
  · refine .inr ⟨by simpa [dipTest] using h1', fun y hy => ?_⟩
    rw [h2] at hy
    cases hy

/-! ## Retained samples -/

theorem notDuplicate_eq (S : List K) (h : 2 ≤ S.length) : notDuplicate S = (List.range S.length).filter (fun i =>
    decide (i = 0) || decide (i = S.length - 1) || !(sAt S i == sAt S (i - 1) && sAt S i == sAt S (i + 1))) := by
  obtain ⟨n, hn⟩ : ∃ n, S.length = n + 2 := ⟨S.length - 2, by omega⟩
  unfold notDuplicate
  have hm : (List.zipWith (fun a b => a && b) (List.zipWith (fun x y => x == y) S.tail.dropLast S.dropLast.dropLast)
      (List.zipWith (fun x y => x == y) S.tail.dropLast S.tail.tail)).map (fun b => !b) =
      (List.range (S.length - 2)).map (fun i => !(sAt S (i + 1) == sAt S i && sAt S (i + 1) == sAt S (i + 2))) := by
    apply List.ext_getElem
    · simp; omega
    · intro i h1 h2
      have hi : i < n := by simpa [hn] using h2
      simp only [List.getElem_map, List.getElem_zipWith, List.getElem_dropLast, List.getElem_tail, List.getElem_range, sAt,
        List.getD_eq_getElem?_getD]
      rw [List.getElem?_eq_getElem (by omega), List.getElem?_eq_getElem (by omega), List.getElem?_eq_getElem (by omega)]
      rfl
  simp only
  rw [hm, maskSel_map, hn]
  simp only [Nat.add_sub_cancel]
  rw [List.range_succ_eq_map, List.filter_cons_of_pos (by simp), List.range_succ, List.map_append, List.filter_append,
    List.filter_map]
  simp only [List.map_cons, List.map_nil, List.singleton_append, List.cons_append]
  rw [List.filter_cons_of_pos (by simp), List.filter_nil]
  rw [List.nil_append]
  congr 3
  apply List.filter_congr
  intro i hi
  rw [List.mem_range] at hi
  have g1 : ¬ (i + 1 = n + 1) := by omega
  simp [Function.comp_def]
  omega

theorem findExtremaParabol_eq (T S : List K) (h : 2 ≤ S.length) (hl : T.length = S.length) :
    findExtremaParabol T S = .ok
      { maxPos := ((parabolVertices ((notDuplicate S).map (sAt T)) ((notDuplicate S).map (sAt S))).filter
          (fun v => decide (v.1 < lit 0))).map (·.2.1)
        maxVal := ((parabolVertices ((notDuplicate S).map (sAt T)) ((notDuplicate S).map (sAt S))).filter
          (fun v => decide (v.1 < lit 0))).map (·.2.2)
        minPos := ((parabolVertices ((notDuplicate S).map (sAt T)) ((notDuplicate S).map (sAt S))).filter
          (fun v => decide (lit 0 < v.1))).map (·.2.1)
        minVal := ((parabolVertices ((notDuplicate S).map (sAt T)) ((notDuplicate S).map (sAt S))).filter
          (fun v => decide (lit 0 < v.1))).map (·.2.2)
        indzer := zeroCrossings S } := by
  have hlt : ∀ i ∈ notDuplicate S, i < S.length := by
    intro i hi
    rw [notDuplicate_eq S h] at hi
    exact List.mem_range.1 (List.mem_of_mem_filter hi)
  have g : ∀ L : List K, L.length = S.length → pyTake L ((notDuplicate S).map (fun k : Nat => (k : Int))) = .ok ((notDuplicate S).map (sAt L)) := by
    intro L hL
    apply pyTake_map
    intro i hi
    have := hlt i hi
    rw [pyGet_nat L i (by omega), sAt, List.getD_eq_getElem?_getD, List.getElem?_eq_getElem (by omega)]
    rfl
  unfold findExtremaParabol
  have g1 : pyGet T 1 = .ok (sAt T 1) := by
    have := pyGet_nat T 1 (by omega)
    rw [sAt, List.getD_eq_getElem?_getD, List.getElem?_eq_getElem (by omega)]
    exact this
  have g0 : pyGet T 0 = .ok (sAt T 0) := by
    have := pyGet_nat T 0 (by omega)
    rw [sAt, List.getD_eq_getElem?_getD, List.getElem?_eq_getElem (by omega)]
    exact this
  simp only [g1, g0, g T hl, g S rfl, bind, Except.bind, pure, Except.pure]

theorem notDuplicate_noFlat {S : List K} (h : 2 ≤ S.length) (hf : NoFlat S) : notDuplicate S = List.range S.length := by
  rw [notDuplicate_eq S h, List.filter_eq_self]
  intro i hi
  rw [List.mem_range] at hi
  simp only [Bool.or_eq_true, decide_eq_true_eq, Bool.not_eq_true', Bool.and_eq_false_iff, beq_eq_false_iff_ne]
  by_cases h0 : i = 0
  · exact .inl (.inl h0)
  by_cases h1 : i = S.length - 1
  · exact .inl (.inr h1)
  · exact .inr (.inr (hf i _ _ (getElem?_sAt hi) (getElem?_sAt (by omega))))

theorem map_sAt_range (S : List K) : (List.range S.length).map (sAt S) = S := by
  apply List.ext_getElem
  · simp
  · intro i h1 h2
    simp only [List.getElem_map, List.getElem_range, sAt, List.getD_eq_getElem?_getD, List.getElem?_eq_getElem h2]
    rfl

/-! ## Alternation -/

/-- Vertices alternate between maxima (`true`: first a maximum) and minima, in increasing order. -/
def Alternates : Bool → List (K × K × K) → Prop
  | _, [] => True
  | b, q :: vs => (if b then q.1 < 0 else 0 < q.1) ∧ (∀ r ∈ vs, q.2.1 < r.2.1) ∧ Alternates (!b) vs

theorem regular_tail {t s : K} {T S : List K} (h : Regular (t :: T) (s :: S)) : Regular T S :=
  fun i Tp T0 Tn Sp S0 Sn h1 h2 h3 h4 h5 h6 => h (i + 1) Tp T0 Tn Sp S0 Sn h1 h2 h3 h4 h5 h6

theorem noFlat_tail {s : K} {S : List K} (h : NoFlat (s :: S)) : NoFlat S :=
  fun i a b h1 h2 => h (i + 1) a b h1 h2

theorem vertices_alternate {Tp T0 Sp S0 : K} {T S : List K} (hT : (Tp :: T0 :: T).Pairwise (· < ·)) (hr : Regular (Tp :: T0 :: T) (Sp :: S0 :: S))
    (hf : NoFlat (Sp :: S0 :: S)) :
    Alternates (decide (Sp < S0)) (parabolVertices (Tp :: T0 :: T) (Sp :: S0 :: S)) ∧
      ∀ q ∈ parabolVertices (Tp :: T0 :: T) (Sp :: S0 :: S), (Tp + T0) / 2 ≤ q.2.1 := by
  induction S generalizing Tp T0 Sp S0 T with
  | nil => unfold parabolVertices; simp [Alternates]
  | cons Sn S ih =>
    match T, hT, hr with
    | [], _, _ => unfold parabolVertices; simp [Alternates]
    | Tn :: T, hT, hr =>
      obtain ⟨ih1, ih2⟩ := ih hT.of_cons (regular_tail hr) (noFlat_tail hf)
      have h1 : Tp < T0 := (List.pairwise_cons.1 hT).1 _ (by simp)
      have h2 : T0 < Tn := (List.pairwise_cons.1 hT.of_cons).1 _ (by simp)
      have f1 : Sp ≠ S0 := hf 0 _ _ rfl rfl
      have f2 : S0 ≠ Sn := hf 1 _ _ rfl rfl
      have hm : ∀ q ∈ parabolVertices (T0 :: Tn :: T) (S0 :: Sn :: S), (Tp + T0) / 2 ≤ q.2.1 := fun q hq => by
        have := ih2 q hq
        linarith
      rw [parabolVertices]
      rcases parabolVertex_cases h1 h2 (hr 0 _ _ _ _ _ _ rfl rfl rfl rfl rfl rfl) with
        ⟨g1, a, t, v, g2, g3, g4⟩ | ⟨g1, a, t, v, g2, g3, g4⟩ | ⟨g1, g1', g2⟩
      · rw [g2]
        have d1 : decide (Sp < S0) = true := decide_eq_true (lt_of_le_of_ne g1.1 f1)
        have d2 : decide (S0 < Sn) = false := decide_eq_false (not_lt.2 g1.2.le)
        rw [d2] at ih1
        refine ⟨⟨by rw [d1]; exact g3, fun r hr => lt_of_lt_of_le g4.hi (ih2 r hr), by rw [d1]; exact ih1⟩, ?_⟩
        intro q hq
        rcases List.mem_cons.1 hq with rfl | hq
        · exact g4.lo
        · exact hm q hq
      · rw [g2]
        have d1 : decide (Sp < S0) = false := decide_eq_false (not_lt.2 g1.1)
        have d2 : decide (S0 < Sn) = true := decide_eq_true g1.2
        rw [d2] at ih1
        refine ⟨⟨by rw [d1]; exact g3, fun r hr => lt_of_lt_of_le g4.hi (ih2 r hr), by rw [d1]; exact ih1⟩, ?_⟩
        intro q hq
        rcases List.mem_cons.1 hq with rfl | hq
        · exact g4.lo
        · exact hm q hq
      · rw [g2]
        have d : decide (Sp < S0) = decide (S0 < Sn) := by
          rw [decide_eq_decide]
          rcases lt_or_gt_of_ne f1 with h | h <;> rcases lt_or_gt_of_ne f2 with h' | h'
          · exact ⟨fun _ => h', fun _ => h⟩
          · exact absurd ⟨h.le, h'⟩ g1
          · exact absurd ⟨h.le, h'⟩ g1'
          · exact ⟨fun h'' => absurd h'' (not_lt.2 h.le), fun h'' => absurd h'' (not_lt.2 h'.le)⟩
        rw [d]
        exact ⟨ih1, hm⟩

theorem alternates_interleaved (vs : List (K × K × K)) :
    (Alternates true vs → Interleaved ((vs.filter (fun v => decide (v.1 < 0))).map (·.2.1)) ((vs.filter (fun v => decide (0 < v.1))).map (·.2.1))) ∧
    (Alternates false vs → Interleaved ((vs.filter (fun v => decide (0 < v.1))).map (·.2.1)) ((vs.filter (fun v => decide (v.1 < 0))).map (·.2.1))) := by
  induction vs with
  | nil => exact ⟨fun _ => .nil, fun _ => .nil⟩
  | cons q vs ih =>
    constructor
    · rintro ⟨h1, h2, h3⟩
      simp only [if_true] at h1
      rw [List.filter_cons_of_pos (by simpa using h1), List.filter_cons_of_neg (by simpa using h1.le), List.map_cons]
      have := ih.2 h3
      generalize hY : (vs.filter (fun v => decide (0 < v.1))).map (·.2.1) = Y at *
      generalize (vs.filter (fun v => decide (v.1 < 0))).map (·.2.1) = X at *
      cases Y with
      | nil => cases this; exact .one _
      | cons y Y =>
        have hy : y ∈ (vs.filter (fun v => decide (0 < v.1))).map (·.2.1) := by rw [hY]; simp
        obtain ⟨r, hr, rfl⟩ := List.mem_map.1 hy
        exact .cons (h2 r (List.mem_of_mem_filter hr)) this
    · rintro ⟨h1, h2, h3⟩
      simp only [Bool.false_eq_true, if_false] at h1
      rw [List.filter_cons_of_pos (by simpa using h1), List.filter_cons_of_neg (by simpa using h1.le), List.map_cons]
      have := ih.1 h3
      generalize hY : (vs.filter (fun v => decide (v.1 < 0))).map (·.2.1) = Y at *
      generalize (vs.filter (fun v => decide (0 < v.1))).map (·.2.1) = X at *
      cases Y with
      | nil => cases this; exact .one _
      | cons y Y =>
        have hy : y ∈ (vs.filter (fun v => decide (v.1 < 0))).map (·.2.1) := by rw [hY]; simp
        obtain ⟨r, hr, rfl⟩ := List.mem_map.1 hy
        exact .cons (h2 r (List.mem_of_mem_filter hr)) this

/-! ## Interleaved lists -/

theorem Spec.Interleaved.head {X Y : List K} (h : Interleaved X Y) : ∀ a X', X = a :: X' → (∀ x ∈ X', a < x) ∧ ∀ y ∈ Y, a < y := by
  induction h with
  | nil => intro a X' h; cases h
  | one a => rintro a' X' ⟨⟩; simp
  | @cons a b X Y hab _ ih =>
    rintro a' X' ⟨⟩
    obtain ⟨h1, h2⟩ := ih b Y rfl
    refine ⟨fun x hx => hab.trans (h2 x hx), fun y hy => ?_⟩
    rcases List.mem_cons.1 hy with rfl | hy
    · exact hab
    · exact hab.trans (h1 y hy)

theorem Spec.Interleaved.sorted {X Y : List K} (h : Interleaved X Y) : X.Pairwise (· < ·) ∧ Y.Pairwise (· < ·) := by
  induction h with
  | nil => simp
  | one a => simp
  | @cons a b X Y hab h ih =>
    refine ⟨List.pairwise_cons.2 ⟨?_, ih.2⟩, ih.1⟩
    exact (Interleaved.head (.cons hab h) a X rfl).1

theorem Spec.Interleaved.len {X Y : List K} (h : Interleaved X Y) : Y.length ≤ X.length ∧ X.length ≤ Y.length + 1 := by
  induction h with
  | nil => simp
  | one a => simp
  | cons hab h ih => simp only [List.length_cons] at *; omega

theorem Spec.Interleaved.last {X Y : List K} (h : Interleaved X Y) : ∀ X' Y' a b, X = X' ++ [a] → Y = Y' ++ [b] →
    (a < b ∧ ∀ y ∈ Y', y < a) ∨ (b < a ∧ ∀ x ∈ X', x < b) := by
  induction h with
  | nil => intro X' Y' a b h; simp at h
  | one a => intro X' Y' a b _ h; simp at h
  | @cons a b X Y hab h ih =>
    intro X' Y' l m hX hY
    cases X' with
    | nil =>
      simp only [List.nil_append, List.cons.injEq] at hX
      obtain ⟨rfl, rfl⟩ := hX
      cases h
      cases Y' with
      | nil => simp at hY; subst hY; exact .inl ⟨hab, by simp⟩
      | cons y Y' => simp at hY
    | cons x X' =>
      simp only [List.cons_append, List.cons.injEq] at hX
      obtain ⟨rfl, rfl⟩ := hX
      rcases ih Y' X' m l hY rfl with ⟨g1, g2⟩ | ⟨g1, g2⟩
      · refine .inr ⟨g1, fun x hx => ?_⟩
        rcases List.mem_cons.1 hx with rfl | hx
        · have := (Interleaved.head (.cons hab h) x _ rfl).2 m (by rw [hY]; simp)
          exact this
        · exact g2 x hx
      · exact .inl ⟨g1, g2⟩

/-! ## Mirroring -/

/-- What one side of one envelope needs on the left. `lp`/`lv`: added positions and values in the order of the code (before reversal). -/
structure LeftSide (t0 s0 : K) (pos val lp lv : List K) : Prop where
  len : lp.length = lv.length
  dec : lp.Pairwise (· > ·)
  below : ∀ x ∈ lp, ∀ y ∈ pos, x < y
  covers : ∃ x ∈ lp, x ≤ t0
  vals : ∀ v ∈ lv, v ∈ val ∨ v = s0

structure RightSide (tL sL : K) (pos val rp rv : List K) : Prop where
  len : rp.length = rv.length
  dec : rp.Pairwise (· > ·)
  above : ∀ x ∈ rp, ∀ y ∈ pos, y < x
  covers : ∃ x ∈ rp, tL ≤ x
  vals : ∀ v ∈ rv, v ∈ val ∨ v = sL

theorem zip_fst {a b : List K} (h : a.length = b.length) : (a.zip b).map Prod.fst = a := by
  rw [List.map_fst_zip]; omega

theorem sides_cover {T S pos val lp lv rp rv : List K} {t0 s0 tL sL : K} (h0 : T.head? = some t0) (hL : T.getLast? = some tL)
    (g0 : S.head? = some s0) (gL : S.getLast? = some sL) (hl : pos.length = val.length) (hp : pos ≠ [])
    (hs : pos.Pairwise (· < ·)) (l : LeftSide t0 s0 pos val lp lv) (r : RightSide tL sL pos val rp rv) :
    CoveringKnots T S pos val ((lp.zip lv).reverse ++ pos.zip val ++ (rp.zip rv).reverse) := by
  have hfst : ((lp.zip lv).reverse ++ pos.zip val ++ (rp.zip rv).reverse).map Prod.fst = lp.reverse ++ pos ++ rp.reverse := by
    rw [List.map_append, List.map_append, List.map_reverse, List.map_reverse, zip_fst l.len, zip_fst r.len, zip_fst hl]
  have hinc : (lp.reverse ++ pos ++ rp.reverse).Pairwise (· < ·) := by
    obtain ⟨y, hy⟩ := List.exists_mem_of_ne_nil pos hp
    rw [List.pairwise_append, List.pairwise_append]
    refine ⟨⟨List.pairwise_reverse.2 (l.dec.imp id), hs, ?_⟩, List.pairwise_reverse.2 (r.dec.imp id), ?_⟩
    · intro a ha b hb
      exact l.below a (List.mem_reverse.1 ha) b hb
    · intro a ha b hb
      have hb := List.mem_reverse.1 hb
      rcases List.mem_append.1 ha with ha | ha
      · exact (l.below a (List.mem_reverse.1 ha) y hy).trans (r.above b hb y hy)
      · exact r.above b hb a ha
  generalize hk : (lp.zip lv).reverse ++ pos.zip val ++ (rp.zip rv).reverse = knots at *
  have hinc' : knots.Pairwise (fun p q => p.1 < q.1) := by
    have := hinc
    rw [← hfst, List.pairwise_map] at this
    exact this
  have hlen : knots.length = lp.length + pos.length + rp.length := by
    have := congrArg List.length hfst
    simpa [Nat.add_assoc] using this
  obtain ⟨x, hx, hx0⟩ := l.covers
  obtain ⟨z, hz, hzL⟩ := r.covers
  have l1 : 1 ≤ lp.length := List.length_pos_of_mem hx
  have l2 : 1 ≤ rp.length := List.length_pos_of_mem hz
  have l3 : 1 ≤ pos.length := List.length_pos_iff.2 hp
  have hne : knots ≠ [] := by
    intro h
    rw [h] at hlen
    simp at hlen
    omega
  refine ⟨by omega, hinc', ?_, ?_, ?_, ?_⟩
  · cases knots with
    | nil => exact absurd rfl hne
    | cons k ks =>
      refine ⟨k, t0, rfl, h0, ?_⟩
      have hm : x ∈ (k :: ks).map Prod.fst := by rw [hfst]; simp [hx]
      obtain ⟨q, hq, rfl⟩ := List.mem_map.1 hm
      rcases List.mem_cons.1 hq with rfl | hq
      · exact hx0
      · exact ((List.pairwise_cons.1 hinc').1 q hq).le.trans hx0
  · refine ⟨knots.getLast hne, tL, List.getLast?_eq_some_getLast hne, hL, ?_⟩
    have hm : z ∈ knots.map Prod.fst := by rw [hfst]; simp [hz]
    obtain ⟨q, hq, rfl⟩ := List.mem_map.1 hm
    rw [← List.dropLast_append_getLast hne] at hq
    rcases List.mem_append.1 hq with hq | hq
    · have := hinc'
      rw [← List.dropLast_append_getLast hne, List.pairwise_append] at this
      exact hzL.trans (this.2.2 q hq _ (by simp)).le
    · rw [List.mem_singleton] at hq
      rw [← hq]
      exact hzL
  · intro p hp
    rw [← hk]
    simp [hp]
  · intro p hp
    rw [← hk] at hp
    simp only [List.mem_append, List.mem_reverse] at hp
    rcases hp with (hp | hp) | hp
    · rcases l.vals p.2 (List.of_mem_zip hp).2 with h | h
      · exact .inl h
      · exact .inr (.inl (by rw [h, g0]))
    · exact .inl (List.of_mem_zip hp).2
    · rcases r.vals p.2 (List.of_mem_zip hp).2 with h | h
      · exact .inl h
      · exact .inr (.inr (by rw [h, gL]))

section Slices
variable {β : Type}

theorem slice_take (X : List β) {nb : Int} (h : 0 ≤ nb) : pySlice X 0 nb = X.take nb.toNat := by
  unfold pySlice sliceBound
  rw [if_neg (by omega), if_neg (by omega)]
  simp [List.take_eq_take_iff]

theorem slice_tail (X : List β) {nb : Int} (h : 0 ≤ nb) : pySlice X 1 (nb + 1) = X.tail.take nb.toNat := by
  unfold pySlice sliceBound
  rw [if_neg (by omega), if_neg (by omega)]
  cases X with
  | nil => simp
  | cons x X =>
    have e : (nb + 1).toNat = nb.toNat + 1 := by omega
    simp only [List.length_cons, e, List.tail_cons]
    have : min (1 : Int).toNat (X.length + 1) = 1 := by simp
    rw [this, Nat.add_min_add_right, List.take_succ_cons]
    simp [List.take_eq_take_iff]

theorem slice_from (X : List β) {nb : Int} (h : 0 ≤ nb) : pySliceFrom X (max 0 ((X.length : Int) - nb)) = X.drop (X.length - nb.toNat) := by
  unfold pySliceFrom sliceBound
  rw [if_neg (by omega)]
  congr 1
  omega

theorem slice_from' (X : List β) {nb : Int} (h : 1 ≤ nb) :
    pySliceFrom X (max 0 ((X.length : Int) - nb + 1)) = X.drop (X.length - (nb.toNat - 1)) := by
  unfold pySliceFrom sliceBound
  rw [if_neg (by omega)]
  congr 1
  omega

theorem slice_dropLast (X : List β) {nb : Int} (h : 0 ≤ nb) (hX : X ≠ []) :
    pySlice X (max 0 ((X.length : Int) - nb - 1)) (-1) = X.dropLast.drop (X.length - nb.toNat - 1) := by
  unfold pySlice sliceBound
  have := List.length_pos_iff.2 hX
  rw [if_neg (by omega), if_pos (by omega), List.dropLast_eq_take]
  congr 1
  · omega
  · congr 1
    omega

end Slices

theorem mirror_dec {L : List K} (c : K) (h : L.Pairwise (· < ·)) : (L.map (fun x => lit 2 * c - x)).Pairwise (· > ·) := by
  rw [List.pairwise_map]
  exact h.imp (fun h => by simp only [gt_iff_lt]; linarith)

theorem left_own {t0 s0 x0 x1 : K} {X val : List K} {n : Nat} (hn : 1 ≤ n) (hs : (x0 :: x1 :: X).Pairwise (· < ·))
    (hc : 2 * x0 - x1 ≤ t0) (hl : (x0 :: x1 :: X).length = val.length) :
    LeftSide t0 s0 (x0 :: x1 :: X) val (((x0 :: x1 :: X).tail.take n).map (fun x => lit 2 * x0 - x)) (val.tail.take n) := by
  have hgt := (List.pairwise_cons.1 hs).1
  refine ⟨?_, mirror_dec _ (hs.of_cons.sublist (List.take_sublist ..)), ?_, ⟨lit 2 * x0 - x1, ?_, by rw [lit_two]; exact hc⟩, ?_⟩
  · simp only [List.length_map, List.length_take, List.length_tail, hl]
  · intro x hx y hy
    obtain ⟨u, hu, rfl⟩ := List.mem_map.1 hx
    have := hgt u (List.mem_of_mem_take hu)
    rw [lit_two]
    rcases List.mem_cons.1 hy with rfl | hy
    · linarith
    · have := hgt y hy
      linarith
  · obtain ⟨n, rfl⟩ : ∃ m, n = m + 1 := ⟨n - 1, by omega⟩
    simp
  · intro v hv
    exact .inl (List.mem_of_mem_tail (List.mem_of_mem_take hv))

theorem left_other {t0 s0 x0 y0 : K} {Y val : List K} {n : Nat} (hn : 1 ≤ n) (hs : (y0 :: Y).Pairwise (· < ·))
    (hgt : ∀ y ∈ y0 :: Y, x0 < y) (hc : 2 * x0 - y0 ≤ t0) (hl : (y0 :: Y).length = val.length) :
    LeftSide t0 s0 (y0 :: Y) val (((y0 :: Y).take n).map (fun x => lit 2 * x0 - x)) (val.take n) := by
  refine ⟨?_, mirror_dec _ (hs.sublist (List.take_sublist ..)), ?_, ⟨lit 2 * x0 - y0, ?_, by rw [lit_two]; exact hc⟩, ?_⟩
  · simp only [List.length_map, List.length_take, hl]
  · intro x hx y hy
    obtain ⟨u, hu, rfl⟩ := List.mem_map.1 hx
    have := hgt u (List.mem_of_mem_take hu)
    have := hgt y hy
    rw [lit_two]
    linarith
  · obtain ⟨n, rfl⟩ : ∃ m, n = m + 1 := ⟨n - 1, by omega⟩
    simp
  · intro v hv
    exact .inl (List.mem_of_mem_take hv)

theorem left_begin {t0 s0 : K} {X val : List K} {n : Nat} (hs : X.Pairwise (· < ·))
    (hgt : ∀ y ∈ X, t0 < y) (hl : X.length = val.length) :
    LeftSide t0 s0 X val ((t0 :: X.take n).map (fun x => lit 2 * t0 - x)) (s0 :: val.take n) := by
  refine ⟨?_, mirror_dec _ ?_, ?_, ⟨lit 2 * t0 - t0, by simp, by rw [lit_two]; linarith⟩, ?_⟩
  · simp only [List.length_map, List.length_cons, List.length_take, hl]
  · exact List.pairwise_cons.2 ⟨fun y hy => hgt y (List.mem_of_mem_take hy), hs.sublist (List.take_sublist ..)⟩
  · intro x hx y hy
    obtain ⟨u, hu, rfl⟩ := List.mem_map.1 hx
    have h2 := hgt y hy
    rw [lit_two]
    rcases List.mem_cons.1 hu with rfl | hu
    · linarith
    · have := hgt u (List.mem_of_mem_take hu)
      linarith
  · intro v hv
    rcases List.mem_cons.1 hv with rfl | hv
    · exact .inr rfl
    · exact .inl (List.mem_of_mem_take hv)

theorem right_own {tL sL xl x1 : K} {X val : List K} {k : Nat} (hk : k ≤ X.length) (hs : (X ++ [x1] ++ [xl]).Pairwise (· < ·))
    (hc : tL ≤ 2 * xl - x1) (hl : (X ++ [x1] ++ [xl]).length = val.length) :
    RightSide tL sL (X ++ [x1] ++ [xl]) val (((X ++ [x1] ++ [xl]).dropLast.drop k).map (fun x => lit 2 * xl - x)) (val.dropLast.drop k) := by
  rw [List.dropLast_concat]
  have hlt := (List.pairwise_append.1 hs).2.2
  refine ⟨?_, mirror_dec _ ((List.pairwise_append.1 hs).1.sublist (List.drop_sublist ..)), ?_,
    ⟨lit 2 * xl - x1, ?_, by rw [lit_two]; exact hc⟩, ?_⟩
  · simp only [List.length_map, List.length_drop, List.length_dropLast, ← hl, List.length_append, List.length_singleton]
    omega
  · intro x hx y hy
    obtain ⟨u, hu, rfl⟩ := List.mem_map.1 hx
    have := hlt u (List.mem_of_mem_drop hu) xl (by simp)
    rw [lit_two]
    rcases List.mem_append.1 hy with hy | hy
    · have := hlt y hy xl (by simp)
      linarith
    · rw [List.mem_singleton] at hy
      subst hy
      linarith
  · rw [List.drop_append_of_le_length hk]
    simp
  · intro v hv
    exact .inl (List.mem_of_mem_dropLast (List.mem_of_mem_drop hv))

theorem right_other {tL sL xl yl : K} {Y val : List K} {k : Nat} (hk : k ≤ Y.length) (hs : (Y ++ [yl]).Pairwise (· < ·))
    (hlt : ∀ y ∈ Y ++ [yl], y < xl) (hc : tL ≤ 2 * xl - yl) (hl : (Y ++ [yl]).length = val.length) :
    RightSide tL sL (Y ++ [yl]) val (((Y ++ [yl]).drop k).map (fun x => lit 2 * xl - x)) (val.drop k) := by
  refine ⟨?_, mirror_dec _ (hs.sublist (List.drop_sublist ..)), ?_, ⟨lit 2 * xl - yl, ?_, by rw [lit_two]; exact hc⟩, ?_⟩
  · simp only [List.length_map, List.length_drop, hl]
  · intro x hx y hy
    obtain ⟨u, hu, rfl⟩ := List.mem_map.1 hx
    have := hlt u (List.mem_of_mem_drop hu)
    have := hlt y hy
    rw [lit_two]
    linarith
  · rw [List.drop_append_of_le_length hk]
    simp
  · intro v hv
    exact .inl (List.mem_of_mem_drop hv)

theorem right_end {tL sL : K} {X val : List K} {k : Nat} (hs : X.Pairwise (· < ·))
    (hlt : ∀ y ∈ X, y < tL) (hl : X.length = val.length) :
    RightSide tL sL X val ((X.drop k ++ [tL]).map (fun x => lit 2 * tL - x)) (val.drop k ++ [sL]) := by
  refine ⟨?_, mirror_dec _ ?_, ?_, ⟨lit 2 * tL - tL, by simp, by rw [lit_two]; linarith⟩, ?_⟩
  · simp only [List.length_map, List.length_append, List.length_drop, hl, List.length_singleton]
  · refine List.pairwise_append.2 ⟨hs.sublist (List.drop_sublist ..), by simp, ?_⟩
    intro a ha b hb
    rw [List.mem_singleton] at hb
    rw [hb]
    exact hlt a (List.mem_of_mem_drop ha)
  · intro x hx y hy
    obtain ⟨u, hu, rfl⟩ := List.mem_map.1 hx
    have h2 := hlt y hy
    rw [lit_two]
    rcases List.mem_append.1 hu with hu | hu
    · have := hlt u (List.mem_of_mem_drop hu)
      linarith
    · rw [List.mem_singleton] at hu
      subst hu
      linarith
  · intro v hv
    rcases List.mem_append.1 hv with hv | hv
    · exact .inl (List.mem_of_mem_drop hv)
    · exact .inr (by simpa using hv)

theorem pyGet_head {l : List K} {x : K} (h : l.head? = some x) : pyGet l 0 = .ok x := by
  cases l with
  | nil => cases h
  | cons y l => cases h; exact pyGet_cons _ _

theorem pyGet_end {l : List K} {x : K} (h : l.getLast? = some x) : pyGet l (-1) = .ok x := by
  have hne : l ≠ [] := by rintro rfl; cases h
  rw [pyGet_last l hne]
  rw [List.getLast?_eq_some_getLast hne] at h
  rw [Option.some.inj h]

theorem interleaved_left {A B : List K} (h : Interleaved A B) (h3 : 3 ≤ A.length + B.length) :
    ∃ x0 x1 X y0 Y, A = x0 :: x1 :: X ∧ B = y0 :: Y ∧ x0 < y0 ∧ y0 < x1 := by
  cases h with
  | nil => simp at h3
  | one a => simp at h3
  | @cons a b X Y hab h =>
    cases X with
    | nil =>
      have := (Interleaved.len h).2
      simp only [List.length_cons, List.length_nil] at *
      omega
    | cons x X => exact ⟨a, x, X, b, Y, rfl, rfl, hab, (h.head b Y rfl).2 x (by simp)⟩

/-- Left edge, first extremum a maximum. -/
theorem leftParabol_max {T S A VA B VB : List K} {nb : Int} (hnb : 1 ≤ nb) {t0 s0 : K} (h0 : T.head? = some t0) (g0 : S.head? = some s0)
    (hA : A.length = VA.length) (hB : B.length = VB.length) (hi : Interleaved A B) (h3 : 3 ≤ A.length + B.length)
    (gA : ∀ x ∈ A, t0 < x) (gB : ∀ x ∈ B, t0 < x) :
    ∃ l, leftParabol nb T S A VA B VB = .ok l ∧ LeftSide t0 s0 A VA l.maxPos l.maxVal ∧ LeftSide t0 s0 B VB l.minPos l.minVal := by
  obtain ⟨sA, sB⟩ := hi.sorted
  have hh := hi.head
  obtain ⟨x0, x1, X, y0, Y, rfl, rfl, h01, h10⟩ := interleaved_left hi h3
  obtain ⟨w, W, rfl⟩ : ∃ w W, VB = w :: W := by
    cases VB with
    | nil => simp at hB
    | cons w W => exact ⟨w, W, rfl⟩
  have hgt := (hh x0 _ rfl).2
  unfold leftParabol
  simp only [fun X : List K => slice_take X (by omega : 0 ≤ nb), fun X : List K => slice_take X (by omega : 0 ≤ nb - 1),
    fun X : List K => slice_tail X (by omega : 0 ≤ nb)]
  have hneg : x0 - y0 < lit 0 := by rw [lit_zero]; linarith
  simp only [pyGet_cons, pyGet_head h0, pyGet_head g0, bind, Except.bind, pure, Except.pure]
  rw [if_pos hneg]
  have hn : 1 ≤ nb.toNat := by omega
  by_cases hc : w < s0 ∧ x0 - t0 < pyAbs (x0 - y0)
  · rw [if_pos hc]
    have hd := hc.2
    rw [pyAbs_eq, abs_of_neg (by linarith)] at hd
    exact ⟨_, rfl, left_own hn sA (by linarith) hA, left_other hn sB hgt (by linarith) hB⟩
  · rw [if_neg hc]
    refine ⟨_, rfl, left_other hn sA gA ?_ hA, left_begin sB gB hB⟩
    have := gA x0 (by simp)
    linarith

/-- Left edge, first extremum a minimum. -/
theorem leftParabol_min {T S A VA B VB : List K} {nb : Int} (hnb : 1 ≤ nb) {t0 s0 : K} (h0 : T.head? = some t0) (g0 : S.head? = some s0)
    (hA : A.length = VA.length) (hB : B.length = VB.length) (hi : Interleaved B A) (h3 : 3 ≤ A.length + B.length)
    (gA : ∀ x ∈ A, t0 < x) (gB : ∀ x ∈ B, t0 < x) :
    ∃ l, leftParabol nb T S A VA B VB = .ok l ∧ LeftSide t0 s0 A VA l.maxPos l.maxVal ∧ LeftSide t0 s0 B VB l.minPos l.minVal := by
  obtain ⟨sB, sA⟩ := hi.sorted
  have hh := hi.head
  obtain ⟨x0, x1, X, y0, Y, rfl, rfl, h01, h10⟩ := interleaved_left hi (by omega)
  obtain ⟨w, W, rfl⟩ : ∃ w W, VA = w :: W := by
    cases VA with
    | nil => simp at hA
    | cons w W => exact ⟨w, W, rfl⟩
  have hgt := (hh x0 _ rfl).2
  unfold leftParabol
  simp only [fun X : List K => slice_take X (by omega : 0 ≤ nb), fun X : List K => slice_take X (by omega : 0 ≤ nb - 1),
    fun X : List K => slice_tail X (by omega : 0 ≤ nb)]
  have hneg : ¬ (y0 - x0 < lit 0) := by rw [lit_zero]; linarith
  simp only [pyGet_cons, pyGet_head h0, pyGet_head g0, bind, Except.bind, pure, Except.pure]
  rw [if_neg hneg]
  have hn : 1 ≤ nb.toNat := by omega
  by_cases hc : s0 < w ∧ x0 - t0 < pyAbs (y0 - x0)
  · rw [if_pos hc]
    have hd := hc.2
    rw [pyAbs_eq, abs_of_pos (by linarith)] at hd
    exact ⟨_, rfl, left_other hn sA hgt (by linarith) hA, left_own hn sB (by linarith) hB⟩
  · rw [if_neg hc]
    refine ⟨_, rfl, left_begin sA gA hA, left_other hn sB gB ?_ hB⟩
    have := gB x0 (by simp)
    linarith

theorem interleaved_last {A B A' B' : List K} {a b : K} (h : Interleaved A B) (h3 : 3 ≤ A.length + B.length) (hA : A = A' ++ [a])
    (hB : B = B' ++ [b]) :
    (b < a ∧ ∃ A'' a1, A' = A'' ++ [a1] ∧ a1 < b) ∨ (a < b ∧ ∃ B'' b1, B' = B'' ++ [b1] ∧ b1 < a) := by
  have hlen := h.len
  subst hA
  subst hB
  simp only [List.length_append, List.length_singleton] at h3 hlen
  rcases h.last A' B' a b rfl rfl with ⟨h1, h2⟩ | ⟨h1, h2⟩
  · right
    refine ⟨h1, ?_⟩
    rcases List.eq_nil_or_concat B' with rfl | ⟨B'', b1, rfl⟩
    · cases A' with
      | nil => simp at h3
      | cons x A' =>
        cases A' with
        | nil =>
          cases h with
          | cons g1 g2 =>
            cases g2 with
            | cons g3 g4 => exact absurd g3 (not_lt.2 h1.le)
        | cons y A' => simp only [List.length_cons, List.length_nil] at hlen; omega
    · exact ⟨B'', b1, List.concat_eq_append .., h2 b1 (by simp)⟩
  · left
    refine ⟨h1, ?_⟩
    rcases List.eq_nil_or_concat A' with rfl | ⟨A'', a1, rfl⟩
    · simp only [List.length_nil] at hlen h3
      omega
    · exact ⟨A'', a1, List.concat_eq_append .., h2 a1 (by simp)⟩

theorem interleaved_right {A B : List K} (h : Interleaved A B ∨ Interleaved B A) (h3 : 3 ≤ A.length + B.length) :
    ∃ A' a B' b, A = A' ++ [a] ∧ B = B' ++ [b] ∧
      ((b < a ∧ ∃ A'' a1, A' = A'' ++ [a1] ∧ a1 < b) ∨ (a < b ∧ ∃ B'' b1, B' = B'' ++ [b1] ∧ b1 < a)) := by
  have hne : A ≠ [] ∧ B ≠ [] := by
    rcases h with h | h
    · obtain ⟨x0, x1, X, y0, Y, rfl, rfl, -⟩ := interleaved_left h h3
      simp
    · obtain ⟨x0, x1, X, y0, Y, rfl, rfl, -⟩ := interleaved_left h (by omega)
      simp
  refine ⟨A.dropLast, A.getLast hne.1, B.dropLast, B.getLast hne.2, (List.dropLast_append_getLast hne.1).symm,
    (List.dropLast_append_getLast hne.2).symm, ?_⟩
  rcases h with h | h
  · exact interleaved_last h h3 (List.dropLast_append_getLast hne.1).symm (List.dropLast_append_getLast hne.2).symm
  · exact (interleaved_last h (by omega) (List.dropLast_append_getLast hne.2).symm (List.dropLast_append_getLast hne.1).symm).symm

theorem exists_concat {l : List K} {n : Nat} (h : n + 1 = l.length) : ∃ l' x, l = l' ++ [x] := by
  rcases List.eq_nil_or_concat l with rfl | ⟨l', x, rfl⟩
  · simp at h
  · exact ⟨l', x, List.concat_eq_append ..⟩

/-- Right edge. -/
theorem rightParabol_ok {T S A VA B VB : List K} {nb : Int} (hnb : 1 ≤ nb) {tL sL : K} (hL : T.getLast? = some tL) (gL : S.getLast? = some sL)
    (hA : A.length = VA.length) (hB : B.length = VB.length) (hi : Interleaved A B ∨ Interleaved B A) (h3 : 3 ≤ A.length + B.length)
    (gA : ∀ x ∈ A, x < tL) (gB : ∀ x ∈ B, x < tL) :
    ∃ r, rightParabol nb T S A VA B VB = .ok r ∧ RightSide tL sL A VA r.maxPos r.maxVal ∧ RightSide tL sL B VB r.minPos r.minVal := by
  have hs : A.Pairwise (· < ·) ∧ B.Pairwise (· < ·) := by
    rcases hi with h | h
    · exact h.sorted
    · exact h.sorted.symm
  obtain ⟨sA, sB⟩ := hs
  have neA : A ≠ [] ∧ B ≠ [] := by
    obtain ⟨A', a, B', b, rfl, rfl, -⟩ := interleaved_right hi h3
    simp
  have neV : VA ≠ [] ∧ VB ≠ [] := by
    constructor
    · rintro rfl; exact neA.1 (List.length_eq_zero_iff.1 hA)
    · rintro rfl; exact neA.2 (List.length_eq_zero_iff.1 hB)
  unfold rightParabol
  have k1 := slice_from VA (by omega : 0 ≤ nb)
  have k2 := slice_from VB (by omega : 0 ≤ nb)
  have k3 := slice_from' VA hnb
  have k4 := slice_from' VB hnb
  have k5 := slice_dropLast VA (by omega : 0 ≤ nb) neV.1
  have k6 := slice_dropLast VB (by omega : 0 ≤ nb) neV.2
  rw [← hA] at k1 k3 k5
  rw [← hB] at k2 k4 k6
  simp only [slice_from A (by omega : 0 ≤ nb), slice_from B (by omega : 0 ≤ nb), slice_from' A hnb, slice_from' B hnb,
    slice_dropLast A (by omega : 0 ≤ nb) neA.1, slice_dropLast B (by omega : 0 ≤ nb) neA.2, k1, k2, k3, k4, k5, k6]
  clear k1 k2 k3 k4 k5 k6
  obtain ⟨A', a, B', b, rfl, rfl, hc⟩ := interleaved_right hi h3
  obtain ⟨VA', va, rfl⟩ := exists_concat (l := VA) (n := A'.length) (by simpa using hA)
  obtain ⟨VB', vb, rfl⟩ := exists_concat (l := VB) (n := B'.length) (by simpa using hB)
  simp only [pyGet_end (List.getLast?_concat : (A' ++ [a]).getLast? = some a), pyGet_end (List.getLast?_concat : (B' ++ [b]).getLast? = some b),
    pyGet_end (List.getLast?_concat : (VA' ++ [va]).getLast? = some va), pyGet_end (List.getLast?_concat : (VB' ++ [vb]).getLast? = some vb),
    pyGet_end hL, pyGet_end gL, bind, Except.bind, pure, Except.pure]
  have hlA : A'.length = VA'.length := by simpa using hA
  have hlB : B'.length = VB'.length := by simpa using hB
  rcases hc with ⟨hba, A'', a1, rfl, h1⟩ | ⟨hab, B'', b1, rfl, h1⟩
  · rw [if_neg (by rw [lit_zero, not_not]; linarith)]
    have hlt : ∀ y ∈ B' ++ [b], y < a := by
      intro y hy
      rcases List.mem_append.1 hy with hy | hy
      · exact ((List.pairwise_append.1 sB).2.2 y hy b (by simp)).trans hba
      · rw [List.mem_singleton] at hy
        rw [hy]
        exact hba
    split
    · next hcond =>
      have hd := hcond.2.2
      rw [pyAbs_eq, abs_of_pos (by linarith)] at hd
      exact ⟨_, rfl, right_own (by simp; omega) sA (by linarith) hA, right_other (by simp; omega) sB hlt (by linarith) hB⟩
    · refine ⟨_, rfl, right_other ?_ sA gA ?_ hA, right_end sB gB hB⟩
      · simp; omega
      · have := gA a (by simp)
        linarith
  · rw [if_pos (by rw [lit_zero]; linarith)]
    have hlt : ∀ y ∈ A' ++ [a], y < b := by
      intro y hy
      rcases List.mem_append.1 hy with hy | hy
      · exact ((List.pairwise_append.1 sA).2.2 y hy a (by simp)).trans hab
      · rw [List.mem_singleton] at hy
        rw [hy]
        exact hab
    split
    · next hcond =>
      have hd := hcond.2
      rw [pyAbs_eq, abs_of_neg (by linarith)] at hd
      exact ⟨_, rfl, right_other (by simp; omega) sA hlt (by linarith) hA, right_own (by simp; omega) sB (by linarith) hB⟩
    · refine ⟨_, rfl, right_end sA gA hA, right_other ?_ sB gB ?_ hB⟩
      · simp; omega
      · have := gB b (by simp)
        linarith

theorem preparePointsParabol_ok {T S A VA B VB : List K} {nb : Int} (hnb : 1 ≤ nb) {t0 s0 tL sL : K} (h0 : T.head? = some t0)
    (g0 : S.head? = some s0) (hL : T.getLast? = some tL) (gL : S.getLast? = some sL)
    (hA : A.length = VA.length) (hB : B.length = VB.length) (hi : Interleaved A B ∨ Interleaved B A) (h3 : 3 ≤ A.length + B.length)
    (hin : ∀ x ∈ A ++ B, t0 < x ∧ x < tL) :
    ∃ kA kB, preparePointsParabol nb T S A VA B VB = .ok (kA, kB) ∧ CoveringKnots T S A VA kA ∧ CoveringKnots T S B VB kB := by
  have i1 : ∀ x ∈ A, t0 < x ∧ x < tL := fun x hx => hin x (List.mem_append_left _ hx)
  have i2 : ∀ x ∈ B, t0 < x ∧ x < tL := fun x hx => hin x (List.mem_append_right _ hx)
  obtain ⟨r, hr, r1, r2⟩ := rightParabol_ok hnb hL gL hA hB hi h3 (fun x hx => (i1 x hx).2) (fun x hx => (i2 x hx).2)
  have neA : A ≠ [] ∧ B ≠ [] := by
    obtain ⟨A', a, B', b, rfl, rfl, -⟩ := interleaved_right hi h3
    simp
  have hs : A.Pairwise (· < ·) ∧ B.Pairwise (· < ·) := by
    rcases hi with h | h
    · exact h.sorted
    · exact h.sorted.symm
  obtain ⟨l, hl, l1, l2⟩ : ∃ l, leftParabol nb T S A VA B VB = .ok l ∧ LeftSide t0 s0 A VA l.maxPos l.maxVal ∧
      LeftSide t0 s0 B VB l.minPos l.minVal := by
    rcases hi with h | h
    · exact leftParabol_max hnb h0 g0 hA hB h h3 (fun x hx => (i1 x hx).1) (fun x hx => (i2 x hx).1)
    · exact leftParabol_min hnb h0 g0 hA hB h h3 (fun x hx => (i1 x hx).1) (fun x hx => (i2 x hx).1)
  unfold preparePointsParabol
  simp only [hl, hr, bind, Except.bind, pure, Except.pure]
  exact ⟨_, _, rfl, sides_cover h0 hL g0 gL hA neA.1 hs.1 l1 r1, sides_cover h0 hL g0 gL hB neA.2 hs.2 l2 r2⟩

end EMD
end PyEMD
