import Verif.Lemmas.ScipyKnot
import Verif.Lemmas.ScipyContracts

/-!
# The quadratic spline
-/

set_option linter.unusedSectionVars false

namespace PyEMD
namespace Scipy
open EMD.Spec PyEMD.Spec
open _root_.Spec (SolvesTridiagonal)

variable {K : Type} [Field K] [LinearOrder K] [IsStrictOrderedRing K] [FloorRing K]

theorem quad_pivots {n : Nat} {x : Nat → K} (hx : Incr n x) (hn : 3 ≤ n) :
    ∀ i < n - 1, Compact.pivot (quadA x n) (quadB x n) (quadC x n) i ≠ 0 := by
  apply Compact.pivot_dominant
  intro i hi
  unfold quadA quadB quadC
  by_cases h : i = 0 ∨ i = n - 2
  · simp [if_pos h]
  · simp only [if_neg h, lit_two]
    have p0 := hx.dx_pos (i := i - 1) (by omega)
    have p1 := hx.dx_pos (i := i) (by omega)
    have p2 := hx.dx_pos (i := i + 1) (by omega)
    have a1 : dx x i / (dx x (i - 1) + dx x i) < 1 := by rw [div_lt_one (by linarith)]; linarith
    have a2 : dx x i / (dx x i + dx x (i + 1)) < 1 := by rw [div_lt_one (by linarith)]; linarith
    have b1 : 0 < dx x i / (dx x (i - 1) + dx x i) := by positivity
    have b2 : 0 < dx x i / (dx x i + dx x (i + 1)) := by positivity
    have b3 : 0 < dx x (i - 1) / (dx x (i - 1) + dx x i) := by positivity
    have b4 : 0 < dx x (i + 1) / (dx x i + dx x (i + 1)) := by positivity
    rw [abs_of_pos b1, abs_of_pos b2, abs_of_pos (by linarith)]
    linarith

theorem quadSlopes_total {n : Nat} {x : Nat → K} (hx : Incr n x) (hn : 3 ≤ n) (y : Nat → K) : ∃ s, quadSlopes x y n = .ok s :=
  Compact.tdma_total _ _ _ _ (n - 1) (by omega) (quad_pivots hx hn)

theorem quadSlopes_solves {n : Nat} {x y : Nat → K} {s : List K} (h : quadSlopes x y n = .ok s) :
    s.length = n - 1 ∧ SolvesTridiagonal (quadA x n) (quadB x n) (quadC x n) (quadD x y n) (n - 1) (entry s) := by
  have := Compact.tdma_solves _ _ _ _ (n - 1) s h
  have e : entry s = fun i => s.getD i 0 := by funext i; rw [entry, lit_zero]
  rw [e]; exact this

theorem quadSlopes_unique {n : Nat} {x y : Nat → K} {s : List K} (h : quadSlopes x y n = .ok s) {z : Nat → K}
    (hz : SolvesTridiagonal (quadA x n) (quadB x n) (quadC x n) (quadD x y n) (n - 1) z) (i : Nat) (hi : i < n - 1) : entry s i = z i := by
  have := Compact.tdma_unique _ _ _ _ (n - 1) s h z hz
  rw [this]
  simp [entry, List.getD, hi]

/-- The equations in plain form. -/
def Slopes (n : Nat) (x y u : Nat → K) : Prop :=
  u 0 = secant x y 0 ∧ u (n - 2) = secant x y (n - 2) ∧ ∀ i, 0 < i → i + 2 < n →
    (dx x i * u (i - 1) + dx x (i - 1) * u i) / (dx x (i - 1) + dx x i) + 2 * u i +
      (dx x (i + 1) * u i + dx x i * u (i + 1)) / (dx x i + dx x (i + 1)) = 4 * secant x y i

theorem slopes_iff {n : Nat} {x y u : Nat → K} (hn : 3 ≤ n) :
    SolvesTridiagonal (quadA x n) (quadB x n) (quadC x n) (quadD x y n) (n - 1) u ↔ Slopes n x y u := by
  have e0 : ∀ i, i = 0 ∨ i = n - 2 → ((if 0 < i then quadA x n i * u (i - 1) else 0) + quadB x n i * u i +
      (if i + 1 < n - 1 then quadC x n i * u (i + 1) else 0) = quadD x y n i ↔ u i = secant x y i) := by
    intro i h
    unfold quadA quadB quadC quadD
    simp [if_pos h]
  have e1 : ∀ i, 0 < i → i + 2 < n → ((if 0 < i then quadA x n i * u (i - 1) else 0) + quadB x n i * u i +
      (if i + 1 < n - 1 then quadC x n i * u (i + 1) else 0) = quadD x y n i ↔
    (dx x i * u (i - 1) + dx x (i - 1) * u i) / (dx x (i - 1) + dx x i) + 2 * u i +
      (dx x (i + 1) * u i + dx x i * u (i + 1)) / (dx x i + dx x (i + 1)) = 4 * secant x y i) := by
    intro i h0 h1
    unfold quadA quadB quadC quadD
    simp only [if_neg (show ¬ (i = 0 ∨ i = n - 2) by omega), if_pos h0, if_pos (show i + 1 < n - 1 by omega), lit_two]
    rw [show (lit 4 : K) = 4 by rw [lit_eq]; norm_num]
    constructor <;> intro h <;> linear_combination h
  constructor
  · intro h
    exact ⟨(e0 0 (.inl rfl)).1 (h 0 (by omega)), (e0 (n - 2) (.inr rfl)).1 (h (n - 2) (by omega)),
      fun i h0 h1 => (e1 i h0 h1).1 (h i (by omega))⟩
  · rintro ⟨h1, h2, h3⟩ i hi
    by_cases h0 : i = 0
    · subst h0; exact (e0 0 (.inl rfl)).2 h1
    · by_cases hl : i = n - 2
      · subst hl; exact (e0 _ (.inr rfl)).2 h2
      · exact (e1 i (by omega) (by omega)).2 (h3 i (by omega) (by omega))

/-- The slopes of the quadratic spline as a rule. -/
def quadRule : SlopeRule K := fun x y n => entry (match quadSlopes x y n with | .ok d => d | .error _ => [])

theorem quadratic_eq : (quadratic : Interp K) = fun X Y t =>
    if refuses 3 X Y then none
    else some (t.map (quadAt (entry X) (entry Y) (quadRule (entry X) (entry Y) X.length) X.length)) := by
  funext X Y t
  unfold quadratic
  by_cases h : refuses 3 X Y = true
  · rw [if_pos h, if_pos h]
  · rw [if_neg h, if_neg h]
    rw [Bool.not_eq_true, refuses_iff] at h
    obtain ⟨s, hs⟩ := quadSlopes_total (incr_entry h.2.2) h.1 (entry Y)
    simp only [quadRule, hs]

theorem quadRule_slopes {n : Nat} {x : Nat → K} (hx : Incr n x) (hn : 3 ≤ n) (y : Nat → K) : Slopes n x y (quadRule x y n) := by
  obtain ⟨s, hs⟩ := quadSlopes_total hx hn y
  simp only [quadRule, hs]
  exact (slopes_iff hn).1 (quadSlopes_solves hs).2

theorem quadRule_unique {n : Nat} {x y u : Nat → K} (hx : Incr n x) (hn : 3 ≤ n) (hu : Slopes n x y u) (i : Nat) (hi : i + 1 < n) :
    quadRule x y n i = u i := by
  obtain ⟨s, hs⟩ := quadSlopes_total hx hn y
  simp only [quadRule, hs]
  exact quadSlopes_unique hs ((slopes_iff hn).2 hu) i (by omega)

theorem quadRule_scaled {n : Nat} {a r : K} {x y x' y' : Nat → K} (h : Scaled n a r x y x' y') (ha : 0 < a) (hx : Incr n x) (hx' : Incr n x')
    (hn : 3 ≤ n) (i : Nat) (hi : i + 1 < n) : quadRule x' y' n i = r * quadRule x y n i := by
  refine quadRule_unique (u := fun i => r * quadRule x y n i) hx' hn ?_ i hi
  obtain ⟨h1, h2, h3⟩ := quadRule_slopes hx hn y
  refine ⟨?_, ?_, ?_⟩
  · simp only; rw [h1, (h 0 (by omega)).2]
  · simp only; rw [h2, (h (n - 2) (by omega)).2]
  · intro i i0 i1
    have row := h3 i i0 i1
    have p0 := hx.dx_pos (i := i - 1) (by omega)
    have p1 := hx.dx_pos (i := i) (by omega)
    have p2 := hx.dx_pos (i := i + 1) (by omega)
    rw [(h (i - 1) (by omega)).1, (h i (by omega)).1, (h (i + 1) (by omega)).1, (h i (by omega)).2]
    have q : (a * dx x i * (r * quadRule x y n (i - 1)) + a * dx x (i - 1) * (r * quadRule x y n i)) / (a * dx x (i - 1) + a * dx x i) =
        r * ((dx x i * quadRule x y n (i - 1) + dx x (i - 1) * quadRule x y n i) / (dx x (i - 1) + dx x i)) := by
      field_simp
    have q' : (a * dx x (i + 1) * (r * quadRule x y n i) + a * dx x i * (r * quadRule x y n (i + 1))) / (a * dx x i + a * dx x (i + 1)) =
        r * ((dx x (i + 1) * quadRule x y n i + dx x i * quadRule x y n (i + 1)) / (dx x i + dx x (i + 1))) := by
      field_simp
    simp only
    rw [q, q']
    linear_combination r * row

theorem quadRule_rev {n : Nat} {x y x' y' : Nat → K} (h : Rev n x y x' y') (hx : Incr n x) (hx' : Incr n x')
    (hn : 3 ≤ n) (i : Nat) (hi : i + 1 < n) : quadRule x' y' n i = -quadRule x y n (n - 2 - i) := by
  refine quadRule_unique (u := fun i => -quadRule x y n (n - 2 - i)) hx' hn ?_ i hi
  obtain ⟨h1, h2, h3⟩ := quadRule_slopes hx hn y
  refine ⟨?_, ?_, ?_⟩
  · simp only; rw [(h 0 (by omega)).2, Nat.sub_zero, h2]
  · simp only; rw [(h (n - 2) (by omega)).2, Nat.sub_self, h1]
  · intro i i0 i1
    have row := h3 (n - 2 - i) (by omega) (by omega)
    rw [show n - 2 - i - 1 = n - 2 - (i + 1) by omega, show n - 2 - i + 1 = n - 2 - (i - 1) by omega] at row
    rw [(h (i - 1) (by omega)).1, (h i (by omega)).1, (h (i + 1) (by omega)).1, (h i (by omega)).2]
    simp only
    generalize dx x (n - 2 - (i - 1)) = A at *
    generalize dx x (n - 2 - i) = B at *
    generalize dx x (n - 2 - (i + 1)) = C at *
    rw [add_comm A B, add_comm B C]
    linear_combination -row

theorem quadRule_line {n : Nat} {x y : Nat → K} {m : K} (hx : Incr n x) (hn : 3 ≤ n) (hm : ∀ i, i + 1 < n → secant x y i = m)
    (i : Nat) (hi : i + 1 < n) : quadRule x y n i = m := by
  refine quadRule_unique (u := fun _ => m) hx hn ?_ i hi
  refine ⟨(hm 0 (by omega)).symm, (hm _ (by omega)).symm, ?_⟩
  intro i i0 i1
  have p0 := hx.dx_pos (i := i - 1) (by omega)
  have p1 := hx.dx_pos (i := i) (by omega)
  have p2 := hx.dx_pos (i := i + 1) (by omega)
  simp only
  rw [hm i (by omega)]
  field_simp
  ring

/-! ### Pieces -/

/-- The piece around knot `i` as a polynomial. -/
def quadCubic (x y u : Nat → K) (i : Nat) : Cubic K :=
  around (x i) (y i) ((dx x i * u (i - 1) + dx x (i - 1) * u i) / (dx x (i - 1) + dx x i))
    ((u i - u (i - 1)) / (dx x (i - 1) + dx x i)) 0

theorem quadCubic_val (x y u : Nat → K) (i : Nat) (t : K) : (quadCubic x y u i).val t = quadPiece x y u i t := by
  rw [quadCubic, around_val]
  unfold quadPiece
  simp only
  ring

theorem half_eq (x : Nat → K) (i : Nat) : half x i = (x i + x (i + 1)) / 2 := by unfold half; rw [lit_two]

theorem quadPiece_knot (x y u : Nat → K) (i : Nat) : quadPiece x y u i (x i) = y i := by unfold quadPiece; simp

/-- Value at the break after knot `i`. -/
theorem quadPiece_right {n : Nat} {x y u : Nat → K} (hx : Incr n x) (i : Nat) (i0 : 0 < i) (hi : i + 1 < n) :
    quadPiece x y u i (half x i) = y i + dx x i / 4 * ((dx x i * u (i - 1) + dx x (i - 1) * u i) / (dx x (i - 1) + dx x i) + u i) := by
  have p0 := hx.dx_pos (i := i - 1) (by omega)
  have p1 := hx.dx_pos (i := i) (by omega)
  have e : half x i - x i = dx x i / 2 := by rw [half_eq]; unfold dx; ring
  unfold quadPiece
  simp only [e]
  field_simp
  ring

/-- Value at the break before knot `i + 1`. -/
theorem quadPiece_left {n : Nat} {x y u : Nat → K} (hx : Incr n x) (i : Nat) (hi : i + 2 < n) :
    quadPiece x y u (i + 1) (half x i) =
      y (i + 1) - dx x i / 4 * (u i + (dx x (i + 1) * u i + dx x i * u (i + 1)) / (dx x i + dx x (i + 1))) := by
  have p0 := hx.dx_pos (i := i) (by omega)
  have p1 := hx.dx_pos (i := i + 1) (by omega)
  have e : half x i - x (i + 1) = -(dx x i / 2) := by rw [half_eq]; unfold dx; ring
  unfold quadPiece
  simp only [e, Nat.add_sub_cancel]
  field_simp
  ring

theorem quad_joined {n : Nat} {x y u : Nat → K} (hx : Incr n x) (i : Nat) (i0 : 0 < i) (hi : i + 2 < n) :
    quadPiece x y u i (half x i) = quadPiece x y u (i + 1) (half x i) ↔
      (dx x i * u (i - 1) + dx x (i - 1) * u i) / (dx x (i - 1) + dx x i) + 2 * u i +
        (dx x (i + 1) * u i + dx x i * u (i + 1)) / (dx x i + dx x (i + 1)) = 4 * secant x y i := by
  rw [quadPiece_right hx i i0 (by omega), quadPiece_left hx i hi]
  have p1 := hx.dx_pos (i := i) (by omega)
  have e : y (i + 1) = y i + dx x i * secant x y i := by unfold secant; field_simp; ring
  rw [e]
  constructor
  · intro h
    apply mul_left_cancel₀ (show dx x i / 4 ≠ 0 by positivity)
    linear_combination h
  · intro h
    linear_combination dx x i / 4 * h

theorem quad_first {n : Nat} {x y u : Nat → K} (hx : Incr n x) (hn : 3 ≤ n) :
    quadPiece x y u 1 (x 0) = y 0 ↔ u 0 = secant x y 0 := by
  have p0 := hx.dx_pos (i := 0) (by omega)
  have p1 := hx.dx_pos (i := 1) (by omega)
  have e : y 1 = y 0 + dx x 0 * secant x y 0 := by unfold secant; field_simp; ring
  have e1 : x 0 - x 1 = -dx x 0 := by unfold dx; ring
  have e2 : quadPiece x y u 1 (x 0) = y 0 + dx x 0 * (secant x y 0 - u 0) := by
    unfold quadPiece
    simp only [Nat.sub_self, e1, e]
    field_simp
    ring
  rw [e2]
  constructor
  · intro h
    have : dx x 0 * (secant x y 0 - u 0) = 0 := by linear_combination h
    rcases mul_eq_zero.1 this with h | h
    · exact absurd h p0.ne'
    · linear_combination -h
  · intro h; rw [h]; ring

theorem quad_last {n : Nat} {x y u : Nat → K} (hx : Incr n x) (hn : 3 ≤ n) :
    quadPiece x y u (n - 2) (x (n - 1)) = y (n - 1) ↔ u (n - 2) = secant x y (n - 2) := by
  obtain ⟨k, rfl⟩ : ∃ k, n = k + 3 := ⟨n - 3, by omega⟩
  rw [show k + 3 - 2 = k + 1 by omega, show k + 3 - 1 = k + 2 by omega]
  have p0 := hx.dx_pos (i := k) (by omega)
  have p1 := hx.dx_pos (i := k + 1) (by omega)
  have e : y (k + 2) = y (k + 1) + dx x (k + 1) * secant x y (k + 1) := by unfold secant; field_simp; ring
  have e1 : x (k + 2) - x (k + 1) = dx x (k + 1) := rfl
  have e2 : quadPiece x y u (k + 1) (x (k + 2)) = y (k + 1) + dx x (k + 1) * u (k + 1) := by
    unfold quadPiece
    simp only [Nat.add_sub_cancel, e1]
    field_simp
    ring
  rw [e2, e, add_right_inj, mul_right_inj' p1.ne']

theorem half_incr {n : Nat} {x : Nat → K} (hx : Incr n x) : Incr (n - 1) (half x) := by
  intro i hi
  rw [half_eq, half_eq]
  have := hx i (by omega)
  have := hx (i + 1) (by omega)
  linarith

/-- Which piece a point belongs to. -/
def InPiece (n : Nat) (x : Nat → K) (i : Nat) (t : K) : Prop :=
  0 < i ∧ i + 1 < n ∧ (1 < i → half x (i - 1) ≤ t) ∧ (i + 2 < n → t ≤ half x i)

theorem exists_piece {n : Nat} (x : Nat → K) (hn : 3 ≤ n) (t : K) : ∃ i, InPiece n x i t := by
  by_contra hne
  have : ∀ i, 0 < i → i + 1 < n → (1 < i → half x (i - 1) ≤ t) := by
    intro i
    induction i with
    | zero => omega
    | succ i ih =>
      intro _ h1 h2
      have h3 := ih (by omega) (by omega)
      by_contra hc
      refine hne ⟨i, by omega, by omega, h3, fun _ => ?_⟩
      exact (not_le.1 hc).le
  exact hne ⟨n - 2, by omega, by omega, this (n - 2) (by omega) (by omega), fun h => absurd h (by omega)⟩

theorem interval_low (x : Nat → K) (t : K) (k : Nat) (h : ∀ j, j ≤ k → 0 < j → t < x j) : interval x t k = 0 := by
  induction k with
  | zero => rfl
  | succ k ih =>
    unfold interval
    rw [if_neg (not_le.2 (h (k + 1) le_rfl (by omega))), ih (fun j hj h0 => h j (by omega) h0)]

theorem interval_high (x : Nat → K) (t : K) (k : Nat) (h : 0 < k → x k ≤ t) : interval x t k = k := by
  cases k with
  | zero => rfl
  | succ k => unfold interval; rw [if_pos (h (by omega))]

/-- The spline at a point is the piece the point belongs to. -/
theorem quadAt_eq {n : Nat} {x y u : Nat → K} (hx : Incr n x) (hn : 3 ≤ n) (hu : Slopes n x y u) (i : Nat) (t : K) (hi : InPiece n x i t) :
    quadAt x y u n t = quadPiece x y u i t := by
  obtain ⟨i0, i1, l, r⟩ := hi
  have hh := half_incr hx
  unfold quadAt
  by_cases hlast : i + 2 < n
  · have r := r hlast
    by_cases hfirst : 1 < i
    · have l := l hfirst
      have := interval_spec (half x) t (n - 1) hh (n - 3) (i - 1) (by omega) (by omega) l (by rw [show i - 1 + 1 = i by omega]; exact r)
      rw [show i - 1 + 1 = i by omega] at this
      rcases this with e | ⟨e1, e2, e3⟩
      · rw [e, show i - 1 + 1 = i by omega]
      · rw [e2, e1]
        exact ((quad_joined hx i i0 hlast).2 (hu.2.2 i i0 hlast)).symm
    · have : i = 1 := by omega
      subst this
      rcases lt_or_eq_of_le r with r | r
      · rw [interval_low (half x) t (n - 3)]
        intro j hj j0
        by_cases h1 : j = 1
        · rw [h1]; exact r
        · exact r.trans (hh.lt (show 1 < j by omega) (by omega))
      · have := interval_spec (half x) t (n - 1) hh (n - 3) 1 (by omega) (by omega) r.ge (by rw [r]; exact (hh 1 (by omega)).le)
        have hne : t ≠ half x 2 := by rw [r]; exact (hh 1 (by omega)).ne
        rcases this with e | ⟨e1, -⟩
        · rw [e, r]
          exact ((quad_joined hx 1 i0 hlast).2 (hu.2.2 1 i0 hlast)).symm
        · exact absurd e1 hne
  · have : i = n - 2 := by omega
    subst this
    rw [interval_high (half x) t (n - 3), show n - 3 + 1 = n - 2 by omega]
    intro h
    have := l (by omega)
    rwa [show n - 2 - 1 = n - 3 by omega] at this

theorem quadAt_knot {n : Nat} {x y u : Nat → K} (hx : Incr n x) (hn : 3 ≤ n) (hu : Slopes n x y u) (i : Nat) (hi : i < n) :
    quadAt x y u n (x i) = y i := by
  have hlt : ∀ j, j + 1 < n → x j < half x j ∧ half x j < x (j + 1) := by
    intro j hj
    rw [half_eq]
    have := hx j hj
    constructor <;> linarith
  have hle : ∀ j k, j ≤ k → k < n → x j ≤ x k := by
    intro j k h hk
    rcases Nat.lt_or_eq_of_le h with h | h
    · exact (hx.lt h hk).le
    · rw [h]
  by_cases h0 : i = 0
  · subst h0
    rw [quadAt_eq hx hn hu 1 (x 0) ⟨by omega, by omega, by omega, fun h => (hle 0 1 (by omega) (by omega)).trans (hlt 1 (by omega)).1.le⟩]
    exact (quad_first hx hn).2 hu.1
  · by_cases h1 : i = n - 1
    · subst h1
      rw [quadAt_eq hx hn hu (n - 2) (x (n - 1)) ⟨by omega, by omega, fun h => ?_, by omega⟩]
      · exact (quad_last hx hn).2 hu.2.1
      · have := (hlt (n - 2 - 1) (by omega)).2
        exact this.le.trans (hle _ _ (by omega) (by omega))
    · rw [quadAt_eq hx hn hu i (x i) ⟨by omega, by omega, fun h => ?_, fun h => (hlt i (by omega)).1.le⟩, quadPiece_knot]
      have := (hlt (i - 1) (by omega)).2
      rw [show i - 1 + 1 = i by omega] at this
      exact this.le

theorem quadAt_scaled {n : Nat} {a e c b : K} {x y u x' y' u' : Nat → K} (ha : 0 < a) (hn : 3 ≤ n) (hI : Incr n x)
    (hx : ∀ i < n, x' i = a * x i + e) (hy : ∀ i < n, y' i = c * y i + b) (hu : ∀ i, i + 1 < n → u' i = c / a * u i) (t : K) :
    quadAt x' y' u' n (a * t + e) = c * quadAt x y u n t + b := by
  unfold quadAt
  have hh : ∀ i < n - 1, half x' i = a * half x i + e := by
    intro i hi
    rw [half_eq, half_eq, hx i (by omega), hx (i + 1) (by omega)]; ring
  rw [interval_scaled ha hh t (n - 3) (by omega)]
  have hk := interval_le (half x) t (n - 3)
  generalize interval (half x) t (n - 3) = k at *
  have p0 : 0 < dx x k := hI.dx_pos (by omega)
  have p1 : 0 < dx x (k + 1) := hI.dx_pos (by omega)
  have h0 : dx x' k = a * dx x k := by unfold dx; rw [hx k (by omega), hx (k + 1) (by omega)]; ring
  have h1 : dx x' (k + 1) = a * dx x (k + 1) := by unfold dx; rw [hx (k + 1) (by omega), hx (k + 1 + 1) (by omega)]; ring
  unfold quadPiece
  simp only [Nat.add_sub_cancel]
  rw [h0, h1, hx (k + 1) (by omega), hy (k + 1) (by omega), hu k (by omega), hu (k + 1) (by omega)]
  generalize dx x k = g at *
  generalize dx x (k + 1) = h at *
  field_simp
  ring

theorem quadAt_rev {n : Nat} {c : K} {x y u x' y' u' : Nat → K} (hn : 3 ≤ n) (hI : Incr n x) (hx : ∀ i < n, x' i = c - x (n - 1 - i))
    (hy : ∀ i < n, y' i = y (n - 1 - i)) (hu : ∀ i, i + 1 < n → u' i = -u (n - 2 - i)) (su : Slopes n x y u) (su' : Slopes n x' y' u') (t : K) :
    quadAt x' y' u' n (c - t) = quadAt x y u n t := by
  obtain ⟨i, hi⟩ := exists_piece x hn t
  rw [quadAt_eq hI hn su i t hi]
  have hh : ∀ i, i + 1 < n → half x' i = c - half x (n - 2 - i) := by
    intro i hi
    rw [half_eq, half_eq, hx i (by omega), hx (i + 1) (by omega), show n - 1 - (i + 1) = n - 2 - i by omega,
      show n - 1 - i = n - 2 - i + 1 by omega]
    ring
  obtain ⟨i0, i1, l, r⟩ := hi
  rw [quadAt_eq (incr_rev hI hx) hn su' (n - 1 - i) (c - t) ⟨by omega, by omega, fun h => ?_, fun h => ?_⟩]
  · have p0 : 0 < dx x (i - 1) := hI.dx_pos (by omega)
    have p1 : 0 < dx x i := hI.dx_pos (by omega)
    have h0 : dx x' (n - 1 - i) = dx x (i - 1) := by
      unfold dx
      rw [hx _ (by omega), hx _ (by omega), show n - 1 - (n - 1 - i) = i by omega, show n - 1 - (n - 1 - i + 1) = i - 1 by omega,
        show i - 1 + 1 = i by omega]
      ring
    have h1 : dx x' (n - 1 - i - 1) = dx x i := by
      unfold dx
      rw [hx _ (by omega), hx _ (by omega), show n - 1 - (n - 1 - i - 1) = i + 1 by omega, show n - 1 - (n - 1 - i - 1 + 1) = i by omega]
      ring
    unfold quadPiece
    simp only
    rw [h0, h1, hx _ (by omega), hy _ (by omega), hu _ (by omega), hu _ (by omega), show n - 1 - (n - 1 - i) = i by omega,
      show n - 2 - (n - 1 - i) = i - 1 by omega, show n - 2 - (n - 1 - i - 1) = i by omega]
    generalize dx x (i - 1) = g at *
    generalize dx x i = h at *
    field_simp
    ring
  · rw [hh _ (by omega), show n - 2 - (n - 1 - i - 1) = i by omega]
    linarith [r (by omega)]
  · rw [hh _ (by omega), show n - 2 - (n - 1 - i) = i - 1 by omega]
    linarith [l (by omega)]

/-! ### Contracts -/

theorem quadratic_equivariant : Equivariant (quadratic : Interp K) := by
  intro a e c b ha hc X Y t
  rw [quadratic_eq]
  simp only
  rw [refuses_affine ha]
  by_cases h : refuses 3 X Y = true
  · rw [if_pos h, if_pos h]; rfl
  · rw [if_neg h, if_neg h]
    rw [Bool.not_eq_true, refuses_iff] at h
    obtain ⟨h1, h2, h3⟩ := h
    have hx : ∀ i < X.length, entry (X.map (fun x => a * x + e)) i = a * entry X i + e := fun i hi => entry_map X _ i hi
    have hy : ∀ i < X.length, entry (Y.map (fun y => c * y + b)) i = c * entry Y i + b := fun i hi => entry_map Y _ i (by omega)
    have hI := incr_entry h3
    simp only [Option.map_some, List.map_map, List.length_map]
    congr 1
    apply List.map_congr_left
    intro τ _
    simp only [Function.comp]
    exact quadAt_scaled ha h1 hI hx hy (quadRule_scaled (scaled_of ha.ne' hx hy) ha hI (incr_scaled ha hI hx) h1) τ

theorem quadratic_reversible : Reversible (quadratic : Interp K) := by
  intro c X Y t h3 hlen hX ht
  rw [quadratic_eq]
  simp only
  rw [refuses_flip]
  by_cases h : refuses 3 X Y = true
  · rw [if_pos h, if_pos h]; rfl
  · rw [if_neg h, if_neg h]
    have hx : ∀ i < X.length, entry (X.map (fun x => c - x)).reverse i = c - entry X (X.length - 1 - i) := by
      intro i hi
      rw [entry_reverse _ _ (by simpa using hi), List.length_map, entry_map _ _ _ (by omega)]
    have hy : ∀ i < X.length, entry Y.reverse i = entry Y (X.length - 1 - i) := by
      intro i hi
      rw [entry_reverse _ _ (by omega), hlen]
    have hI := incr_entry hX
    simp only [Option.map_some, List.length_reverse, List.length_map, ← List.map_reverse, List.map_map] at hx ⊢
    congr 1
    apply List.map_congr_left
    intro τ hτ
    simp only [Function.comp]
    have hI' := incr_rev hI hx
    exact quadAt_rev h3 hI hx hy (quadRule_rev (rev_of hx hy) hI hI' h3) (quadRule_slopes hI h3 _) (quadRule_slopes hI' h3 _) τ

theorem quadratic_accepts : Accepts (quadratic : Interp K) := by
  intro X Y t h3 hlen hX _
  have : refuses 3 X Y = false := (refuses_iff _ _ _).2 ⟨by omega, hlen, hX⟩
  exact ⟨_, by rw [quadratic_eq]; simp only [this]; rfl, by simp⟩

theorem quadratic_through : PassesThrough (quadratic : Interp K) := by
  intro X Y t q hX hlen h
  rw [quadratic_eq] at h
  simp only at h
  split at h
  · exact absurd h (by simp)
  · rename_i hr
    rw [Bool.not_eq_true, refuses_iff] at hr
    injection h with h
    subst h
    have hI := incr_entry hX
    exact through_of hlen (fun i hi => quadAt_knot hI hr.1 (quadRule_slopes hI hr.1 _) i hi)

theorem quadratic_lines : KeepsLines (quadratic : Interp K) := by
  intro X t q a b hX h
  rw [quadratic_eq] at h
  simp only at h
  split at h
  · exact absurd h (by simp)
  · rename_i hf
    rw [Bool.not_eq_true, refuses_iff] at hf
    injection h with h
    subst h
    have h3 := hf.1
    have hI := incr_entry hX
    have hd := quadRule_line (m := a) hI hf.1 (secant_line hX a b)
    apply List.map_congr_left
    intro τ _
    unfold quadAt
    have hk := interval_le (half (entry X)) τ (X.length - 3)
    generalize interval (half (entry X)) τ (X.length - 3) = k at hk
    have p0 : 0 < dx (entry X) k := hI.dx_pos (by omega)
    have p1 : 0 < dx (entry X) (k + 1) := hI.dx_pos (by omega)
    unfold quadPiece
    simp only [Nat.add_sub_cancel]
    rw [hd k (by omega), hd (k + 1) (by omega), entry_map _ _ _ (by omega)]
    field_simp
    ring

/-! ### The spline of the specification -/

theorem halfWay_of {n : Nat} {x y u : Nat → K} (hx : Incr n x) (hn : 3 ≤ n) (hu : Slopes n x y u) : HalfWay n x y (quadCubic x y u) := by
  refine ⟨fun i _ _ => rfl, ?_, ?_, ?_, ?_, ?_⟩
  · intro i i0 i1; rw [quadCubic_val, quadPiece_knot]
  · rw [quadCubic_val]; exact (quad_first hx hn).2 hu.1
  · rw [quadCubic_val]; exact (quad_last hx hn).2 hu.2.1
  · intro i i0 i1
    rw [quadCubic_val, quadCubic_val, ← half_eq]
    exact (quad_joined hx i i0 (by omega)).2 (hu.2.2 i i0 (by omega))
  · intro i i0 i1
    have p0 : 0 < dx x (i - 1) := hx.dx_pos (by omega)
    have p1 : 0 < dx x i := hx.dx_pos (by omega)
    have p2 : 0 < dx x (i + 1) := hx.dx_pos (by omega)
    rw [quadCubic, quadCubic, around_d1, around_d1, Nat.add_sub_cancel]
    have e1 : (x i + x (i + 1)) / 2 - x i = dx x i / 2 := by unfold dx; ring
    have e2 : (x i + x (i + 1)) / 2 - x (i + 1) = -(dx x i / 2) := by unfold dx; ring
    rw [e1, e2]
    field_simp
    ring

theorem halfWay_unique {n : Nat} {x y : Nat → K} (hx : Incr n x) (hn : 3 ≤ n) {p : Nat → Cubic K} (hp : HalfWay n x y p)
    (i : Nat) (i0 : 0 < i) (i1 : i < n - 1) : p i = quadCubic x y (quadRule x y n) i := by
  -- slopes half way between the knots
  let u : Nat → K := fun j => if j = 0 then (p 1).d1 (half x 0) else (p j).d1 (half x j)
  have ur : ∀ j, 0 < j → j < n - 1 → (p j).d1 (half x j) = u j := by
    intro j j0 j1; simp only [u, if_neg (show ¬ j = 0 by omega)]
  have ul : ∀ j, 0 < j → j < n - 1 → (p j).d1 (half x (j - 1)) = u (j - 1) := by
    intro j j0 j1
    by_cases h : j = 1
    · subst h; simp [u]
    · simp only [u, if_neg (show ¬ j - 1 = 0 by omega)]
      have := hp.smooth (j - 1) (by omega) (by omega)
      rw [show j - 1 + 1 = j by omega] at this
      rw [half_eq, show j - 1 + 1 = j by omega, this]
  have hpu : ∀ j, 0 < j → j < n - 1 → p j = quadCubic x y u j := by
    intro j j0 j1
    have p0 : 0 < dx x (j - 1) := hx.dx_pos (by omega)
    have p1 : 0 < dx x j := hx.dx_pos (by omega)
    have a1 := ur j j0 j1
    have a2 := ul j j0 j1
    have a3 := hp.knot j j0 j1
    have a4 := hp.quadratic j j0 j1
    have e1 : half x j = x j + dx x j / 2 := by rw [half_eq]; unfold dx; ring
    have e2 : half x (j - 1) = x j - dx x (j - 1) / 2 := by
      rw [half_eq]; unfold dx; rw [show j - 1 + 1 = j by omega]; ring
    rw [e1] at a1
    rw [e2] at a2
    unfold quadCubic
    generalize u j = U at *
    generalize u (j - 1) = V at *
    simp only [Cubic.d1, Cubic.val] at a1 a2 a3
    have s2 : (p j).c2 = (U - V) / (dx x (j - 1) + dx x j) := by
      rw [eq_div_iff (by positivity), ← a1, ← a2, a4]; ring
    have s1 : (p j).c1 + 2 * (p j).c2 * x j = (dx x j * V + dx x (j - 1) * U) / (dx x (j - 1) + dx x j) := by
      rw [eq_div_iff (by positivity), ← a1, ← a2, a4]; ring
    unfold around
    rw [← s1, ← s2]
    clear s1 s2 a1 a2
    revert a4
    revert a3
    rcases p j with ⟨c0, c1, c2, c3⟩
    intro a3 a4
    simp only at a3 a4
    subst a4
    congr 1
    · linear_combination a3
    · ring
    · ring
  have hs : Slopes n x y u := by
    refine ⟨?_, ?_, ?_⟩
    · have := hp.first
      rw [hpu 1 (by omega) (by omega), quadCubic_val] at this
      exact (quad_first hx hn).1 this
    · have := hp.last
      rw [hpu (n - 2) (by omega) (by omega), quadCubic_val] at this
      exact (quad_last hx hn).1 this
    · intro j j0 j1
      have := hp.joined j j0 (by omega)
      rw [hpu j j0 (by omega), hpu (j + 1) (by omega) (by omega), quadCubic_val, quadCubic_val, ← half_eq] at this
      exact (quad_joined hx j j0 j1).1 this
  rw [hpu i i0 i1]
  unfold quadCubic
  rw [quadRule_unique hx hn hs i (by omega), quadRule_unique hx hn hs (i - 1) (by omega)]

end Scipy
end PyEMD
