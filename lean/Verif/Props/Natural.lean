import Verif.Props.Scipy
import Verif.Props.Spline
import Verif.Lemmas.Parabol

/-!
# Is the default spline the natural one? (C101)
-/

set_option linter.unusedSectionVars false

namespace PyEMD
namespace EMD
open EMD.Spec PyEMD.Spec

variable {K : Type} [Field K] [LinearOrder K] [IsStrictOrderedRing K] [FloorRing K]

/-- What /repo/README.md:39 and /repo/doc/speedup.rst:63 say of the default envelopes: they are natural cubic splines.  `X` and `Y` are positions and
values of the extrema. -/
def DefaultIsNatural (X Y : List K) : Prop :=
  ∃ p, NaturalSpline X.length (fun i => X.getD i 0) (fun i => Y.getD i 0) p ∧
    ∀ T t q : List K, T.Pairwise (· ≤ ·) → splinePoints Scipy.scipy .cubic T (X.zip Y) = .ok (t, q) →
      ∀ (i j : ℕ) (x0 x1 τ : K), X[i]? = some x0 → X[i + 1]? = some x1 → t[j]? = some τ → x0 ≤ τ → τ ≤ x1 → q[j]? = some ((p i).val τ)

/-- Cubics which agree on an interval are equal. -/
theorem cubic_ext {p q : Cubic K} {a b : K} (hab : a < b) (h : ∀ t, a ≤ t → t ≤ b → p.val t = q.val t) : p = q := by
  obtain ⟨e, he⟩ : ∃ e, e = (b - a) / 3 := ⟨_, rfl⟩
  have e0 : 0 < e := by rw [he]; apply div_pos <;> linarith
  have hb : b = a + 3 * e := by rw [he]; ring
  have h0 := h a le_rfl hab.le
  have h1 := h (a + e) (by linarith) (by linarith)
  have h2 := h (a + 2 * e) (by linarith) (by linarith)
  have h3 := h (a + 3 * e) (by linarith) (by linarith)
  simp only [Cubic.val] at h0 h1 h2 h3
  have ne := e0.ne'
  have c3 : p.c3 = q.c3 := by
    apply mul_left_cancel₀ (show 6 * e ^ 3 ≠ 0 by positivity)
    linear_combination h3 - 3 * h2 + 3 * h1 - h0
  rw [c3] at h0 h1 h2 h3
  have c2 : p.c2 = q.c2 := by
    apply mul_left_cancel₀ (show 2 * e ^ 2 ≠ 0 by positivity)
    linear_combination h2 - 2 * h1 + h0
  rw [c2] at h0 h1 h2 h3
  have c1 : p.c1 = q.c1 := by
    apply mul_left_cancel₀ ne
    linear_combination h1 - h0
  rw [c1] at h0 h1 h2 h3
  have c0 : p.c0 = q.c0 := by linear_combination h0
  cases p; cases q
  simp only [] at *
  subst c0 c1 c2 c3
  rfl

/-- With four or more knots the default is what `CubicSpline` gives. -/
theorem splinePoints_cubic {X Y T : List K} (h4 : 4 ≤ X.length) (hlen : X.length = Y.length) (hX : X.Pairwise (· < ·)) {a b : K}
    (ha : X[0]? = some a) (hb : X[X.length - 1]? = some b) {q : List K}
    (hq : Scipy.cubic X Y (T.filter (fun τ => decide (a ≤ τ) && decide (τ ≤ b))) = some q) :
    splinePoints Scipy.scipy .cubic T (X.zip Y) = .ok (T.filter (fun τ => decide (a ≤ τ) && decide (τ ≤ b)), q) := by
  have e1 : (X.zip Y).map (·.1) = X := by
    rw [← List.unzip_fst, List.unzip_zip (by omega)]
  have e2 : (X.zip Y).map (·.2) = Y := by
    rw [← List.unzip_snd, List.unzip_zip (by omega)]
  have e3 : (X.zip Y).length > 3 := by rw [List.length_zip]; omega
  have hne : X ≠ [] := by rintro rfl; simp at h4
  unfold splinePoints
  dsimp only
  rw [e1, e2, pyGet_head (x := a) (by rw [List.head?_eq_getElem?]; exact ha), pyGet_end (x := b) (by rw [List.getLast?_eq_getElem?]; exact hb)]
  simp only [bind, Except.bind, if_pos e3]
  rw [show (Scipy.scipy : SciPy K).cubic = Scipy.cubic from rfl, hq]
  rfl

/-- If the default spline is natural, its pieces are those of the not-a-knot spline. -/
theorem natural_pieces {X Y : List K} (h4 : 4 ≤ X.length) (hlen : X.length = Y.length) (hX : X.Pairwise (· < ·)) {p p' : ℕ → Cubic K}
    (hp : ∀ T t q : List K, T.Pairwise (· ≤ ·) → splinePoints Scipy.scipy .cubic T (X.zip Y) = .ok (t, q) →
      ∀ (i j : ℕ) (x0 x1 τ : K), X[i]? = some x0 → X[i + 1]? = some x1 → t[j]? = some τ → x0 ≤ τ → τ ≤ x1 → q[j]? = some ((p i).val τ))
    (hp' : ∀ t, ∃ q, Scipy.cubic X Y t = some q ∧ q.length = t.length ∧ ∀ (i j : ℕ) (x0 x1 τ : K), X[i]? = some x0 → X[i + 1]? = some x1 →
      t[j]? = some τ → x0 ≤ τ → τ ≤ x1 → q[j]? = some ((p' i).val τ)) (i : ℕ) (hi : i + 1 < X.length) : p i = p' i := by
  have hinc := fun (i j : ℕ) (hj : j < X.length) (hij : i < j) => List.pairwise_iff_getElem.1 hX i j (by omega) hj hij
  apply cubic_ext (hinc i (i + 1) hi (by omega))
  intro τ l r
  have l' : X[0] ≤ X[i] := by
    rcases Nat.eq_zero_or_pos i with h | h
    · subst h; exact le_rfl
    · exact (hinc 0 i (by omega) h).le
  have r' : X[i + 1] ≤ X[X.length - 1] := by
    rcases Nat.eq_or_lt_of_le (show i + 1 ≤ X.length - 1 by omega) with h | h
    · simp only [h]; exact le_rfl
    · exact (hinc (i + 1) (X.length - 1) (by omega) h).le
  have hf : [τ].filter (fun τ => decide (X[0] ≤ τ) && decide (τ ≤ X[X.length - 1])) = [τ] := by
    rw [List.filter_eq_self]
    intro a ha
    rw [List.mem_singleton] at ha
    subst ha
    simp [l'.trans l, r.trans r']
  obtain ⟨q, hq, -, hv⟩ := hp' [τ]
  have hs := splinePoints_cubic (T := [τ]) h4 hlen hX (List.getElem?_eq_getElem (by omega)) (List.getElem?_eq_getElem (by omega)) (q := q)
    (by rw [hf]; exact hq)
  rw [hf] at hs
  have a1 := hp [τ] _ _ (List.pairwise_singleton _ _) hs i 0 _ _ τ (List.getElem?_eq_getElem (by omega)) (List.getElem?_eq_getElem hi) rfl l r
  have a2 := hv i 0 _ _ τ (List.getElem?_eq_getElem (by omega)) (List.getElem?_eq_getElem hi) rfl l r
  rw [a1] at a2
  exact Option.some.inj a2

/-- C101 fails for four or more extrema: whatever their positions, values on a parabola are not interpolated by the natural spline. -/
theorem C101_fails (X : List K) (h4 : 4 ≤ X.length) (hX : X.Pairwise (· < ·)) : ¬ DefaultIsNatural X (X.map (fun x => x * x)) := by
  rintro ⟨p, hn, hp⟩
  obtain ⟨p', -, hu, hp'⟩ := Scipy.C99_not_a_knot X (X.map (fun x => x * x)) h4 (by simp) hX
  have e := natural_pieces h4 (by simp) hX hp hp' 0 (by omega)
  have hval : ∀ i < X.length, (X.map (fun x => x * x)).getD i 0 = (⟨0, 0, 1, 0⟩ : Cubic K).val (X.getD i 0) := by
    intro i hi
    simp [List.getD, hi, Cubic.val]
    ring
  have hc := hu (fun _ => ⟨0, 0, 1, 0⟩) ⟨fun i hi => (hval i (by omega)).symm, fun i hi => (hval (i + 1) (by omega)).symm,
    fun _ _ => rfl, fun _ _ => rfl, rfl, rfl⟩ 0 (by omega)
  have := hn.first
  rw [e, ← hc] at this
  simp [Cubic.d2] at this

/-- C101 for four extrema: the default spline is the natural one only if it is a straight line.  Missing from the claim: everything else. -/
theorem C101_four_partial (X Y : List K) (h4 : X.length = 4) (hlen : X.length = Y.length) (hX : X.Pairwise (· < ·)) :
    DefaultIsNatural X Y ↔ ∃ a b, Y = X.map (fun x => a * x + b) := by
  constructor
  · rintro ⟨p, hn, hp⟩
    obtain ⟨p', hk, -, hp'⟩ := Scipy.C99_not_a_knot X Y h4.ge hlen hX
    have e := fun i hi => natural_pieces h4.ge hlen hX hp hp' i hi
    rw [h4] at e hk hn
    have hinc := fun (i j : ℕ) (hj : j < X.length) (hij : i < j) => List.pairwise_iff_getElem.1 hX i j (by omega) hj hij
    have j01 : p' 0 = p' 1 := by
      have a3 := hk.first
      have a2 := hk.smooth2 0 (by omega)
      have a1 := hk.smooth1 0 (by omega)
      have a0 := (hk.right 0 (by omega)).trans (hk.left 1 (by omega)).symm
      simp only [Cubic.d2, Cubic.d1, Cubic.val, a3] at a2 a1 a0
      have b2 : (p' 0).c2 = (p' 1).c2 := by linear_combination a2 / 2
      rw [b2] at a1 a0
      have b1 : (p' 0).c1 = (p' 1).c1 := by linear_combination a1
      rw [b1] at a0
      have b0 : (p' 0).c0 = (p' 1).c0 := by linear_combination a0
      revert a3 b2 b1 b0
      cases p' 0; cases p' 1
      simp only []
      rintro rfl rfl rfl rfl
      rfl
    have j12 : p' 1 = p' 2 := by
      have a3 := hk.last
      have a2 := hk.smooth2 1 (by omega)
      have a1 := hk.smooth1 1 (by omega)
      have a0 := (hk.right 1 (by omega)).trans (hk.left 2 (by omega)).symm
      simp only [Cubic.d2, Cubic.d1, Cubic.val, show 4 - 3 = 1 from rfl, show 4 - 2 = 2 from rfl] at a3 a2 a1 a0
      simp only [a3] at a2 a1 a0
      have b2 : (p' 1).c2 = (p' 2).c2 := by linear_combination a2 / 2
      rw [b2] at a1 a0
      have b1 : (p' 1).c1 = (p' 2).c1 := by linear_combination a1
      rw [b1] at a0
      have b0 : (p' 1).c0 = (p' 2).c0 := by linear_combination a0
      revert a3 b2 b1 b0
      cases p' 1; cases p' 2
      simp only []
      rintro rfl rfl rfl rfl
      rfl
    have d0 := hn.first
    have d3 := hn.last
    rw [e 0 (by omega)] at d0
    rw [show 4 - 2 = 2 from rfl, show 4 - 1 = 3 from rfl, e 2 (by omega), ← j12, ← j01] at d3
    simp only [Cubic.d2] at d0 d3
    have x03 := hinc 0 3 (by omega) (by omega)
    have x0 : X.getD 0 0 = X[0] := by simp [List.getD, h4]
    have x3 : X.getD 3 0 = X[3] := by simp [List.getD, h4]
    rw [x0] at d0
    rw [x3] at d3
    have c3 : (p' 0).c3 = 0 := by
      have : (X[3] - X[0]) ≠ 0 := (sub_pos.2 x03).ne'
      apply mul_left_cancel₀ this
      linear_combination (d3 - d0) / 6
    rw [c3] at d0
    have c2 : (p' 0).c2 = 0 := by linear_combination d0 / 2
    refine ⟨(p' 0).c1, (p' 0).c0, ?_⟩
    have line : ∀ i < 4, Y.getD i 0 = (p' 0).c1 * X.getD i 0 + (p' 0).c0 := by
      intro i hi
      have : (p' 0).val (X.getD i 0) = Y.getD i 0 := by
        by_cases h0 : i = 3
        · subst h0
          have := hk.right 2 (by omega)
          rw [← j12, ← j01] at this
          exact this
        · have := hk.left i (by omega)
          have hpi : p' i = p' 0 := by
            have : i = 0 ∨ i = 1 ∨ i = 2 := by omega
            rcases this with rfl | rfl | rfl
            · rfl
            · exact j01.symm
            · exact (j01.trans j12).symm
          rw [hpi] at this
          exact this
      rw [← this, Cubic.val, c2, c3]
      ring
    apply List.ext_getElem
    · simp [hlen]
    · intro i h1 h2
      have := line i (by omega)
      rw [List.getElem_map]
      simpa [List.getD, h1, show i < X.length by omega] using this
  · rintro ⟨a, b, rfl⟩
    refine ⟨fun _ => ⟨b, a, 0, 0⟩, ⟨?_, ?_, ?_, ?_, ?_, ?_⟩, ?_⟩
    · intro i hi; simp [Cubic.val, List.getD, show i < X.length by omega]; ring
    · intro i hi; simp [Cubic.val, List.getD, show i + 1 < X.length by omega]; ring
    · intro i hi; rfl
    · intro i hi; rfl
    · simp [Cubic.d2]
    · simp [Cubic.d2]
    · intro T t q hT h i j x0 x1 τ h0 h1 hj l r
      obtain ⟨q', hq', -, -⟩ := (Scipy.C99_not_a_knot X (X.map (fun x => a * x + b)) h4.ge (by simp) hX).choose_spec.2.2
        (T.filter (fun τ => decide (X[0] ≤ τ) && decide (τ ≤ X[X.length - 1])))
      have hs := splinePoints_cubic (T := T) h4.ge (by simp) hX (List.getElem?_eq_getElem (by omega)) (List.getElem?_eq_getElem (by omega)) hq'
      rw [hs] at h
      injection h with h
      injection h with ht hqq
      have hl := Scipy.C100_lines.2.1 X _ q' a b hX hq'
      rw [ht] at hl
      rw [← hqq, hl, List.getElem?_map, hj]
      simp [Cubic.val]
      ring

/-- C101 for three extrema: `cubic_spline_3pts` gives the natural spline. -/
theorem C101_three_partial (X Y : List K) (h3 : X.length = 3) (hlen : X.length = Y.length) (hX : X.Pairwise (· < ·)) : DefaultIsNatural X Y := by
  match X, Y, h3, hlen with
  | [x0, x1, x2], [y0, y1, y2], _, _ =>
    have h0 : x0 < x1 := by simp at hX; exact hX.1.1
    have h1 : x1 < x2 := by simp at hX; exact hX.2
    obtain ⟨p, q, hn, h⟩ := C24_natural_spline x0 x1 x2 y0 y1 y2 h0 h1
    refine ⟨fun i => if i = 0 then p else q, ⟨?_, ?_, ?_, ?_, ?_, ?_⟩, ?_⟩
    · intro i hi
      have : i = 0 ∨ i = 1 := by simp at hi; omega
      rcases this with rfl | rfl
      · simpa using hn.v0
      · simpa using hn.v1'
    · intro i hi
      have : i = 0 ∨ i = 1 := by simp at hi; omega
      rcases this with rfl | rfl
      · simpa using hn.v1
      · simpa using hn.v2
    · intro i hi
      have : i = 0 := by simp at hi; omega
      subst this
      simpa using hn.smooth1
    · intro i hi
      have : i = 0 := by simp at hi; omega
      subst this
      simpa using hn.smooth2
    · simpa using hn.nat0
    · simpa using hn.nat2
    · intro T t v hT hs i j a b τ ha hb hj l r
      have e1 : splinePoints Scipy.scipy .cubic T ([x0, x1, x2].zip [y0, y1, y2]) =
          cubicSpline3pts [x0, x1, x2] [y0, y1, y2] (T.filter (fun τ => decide (x0 ≤ τ) && decide (τ ≤ x2))) := rfl
      rw [e1, h _ (hT.filter _)] at hs
      injection hs with hs
      injection hs with ht hv
      rw [ht] at hv
      rw [← hv, List.getElem?_map, hj, Option.map_some]
      congr 1
      match i, ha, hb with
      | 0, ha, hb =>
        simp at ha hb
        subst ha hb
        simp only [if_pos]
        rcases lt_or_eq_of_le r with r | r
        · rw [if_pos r]
        · subst r; rw [if_neg (lt_irrefl _), hn.v1, hn.v1']
      | 1, ha, hb =>
        simp at ha hb
        subst ha hb
        simp [not_lt.2 l]
      | i + 2, ha, hb => simp at hb

/-- Extrema 0, 1, 4, 9 at 0, 1, 2, 3: the default envelope at 1/2 is 1/4, the natural one would be 7/20. -/
example : splinePoints Scipy.scipy .cubic ([1 / 2] : List ℚ) [(0, 0), (1, 1), (2, 4), (3, 9)] = .ok ([1 / 2], [1 / 4]) ∧
    ∃ p, NaturalSpline 4 (fun i => [0, 1, 2, 3].getD i 0) (fun i => [0, 1, 4, 9].getD i 0) p ∧ (p 0).val (1 / 2 : ℚ) = 7 / 20 := by
  refine ⟨by decide +kernel, fun i => if i = 0 then ⟨0, 3 / 5, 0, 2 / 5⟩ else if i = 1 then ⟨2 / 5, -3 / 5, 6 / 5, 0⟩ else ⟨18 / 5, -27 / 5, 18 / 5, -2 / 5⟩,
    ⟨?_, ?_, ?_, ?_, ?_, ?_⟩, ?_⟩ <;> decide +kernel

end EMD
end PyEMD
