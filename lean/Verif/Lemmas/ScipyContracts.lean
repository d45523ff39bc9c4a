import Verif.Lemmas.ScipyRules

/-!
# The interpolators meet the contracts
-/

set_option linter.unusedSectionVars false

namespace PyEMD
namespace Scipy
open EMD.Spec PyEMD.Spec

variable {K : Type} [Field K] [LinearOrder K] [IsStrictOrderedRing K] [FloorRing K]

theorem entry_map (X : List K) (f : K → K) (i : Nat) (h : i < X.length) : entry (X.map f) i = f (entry X i) := by
  rw [entry_eq _ _ (by simpa using h), entry_eq _ _ h, List.getElem_map]

theorem entry_reverse (X : List K) (i : Nat) (h : i < X.length) : entry X.reverse i = entry X (X.length - 1 - i) := by
  rw [entry_eq _ _ (by simpa using h), entry_eq _ _ (by omega), List.getElem_reverse]

theorem pairwise_map_affine {a e : K} (ha : 0 < a) (X : List K) :
    (X.map (fun x => a * x + e)).Pairwise (· < ·) ↔ X.Pairwise (· < ·) := by
  rw [List.pairwise_map]
  constructor <;> refine List.Pairwise.imp ?_ <;> intro p q h
  · exact lt_of_mul_lt_mul_left (by linarith) ha.le
  · linarith [mul_lt_mul_of_pos_left h ha]

theorem refuses_affine {least : Nat} {a e c b : K} (ha : 0 < a) (X Y : List K) :
    refuses least (X.map (fun x => a * x + e)) (Y.map (fun y => c * y + b)) = refuses least X Y := by
  rw [Bool.eq_iff_iff, ← not_iff_not, Bool.not_eq_true, Bool.not_eq_true, refuses_iff, refuses_iff, pairwise_map_affine ha]
  simp

theorem pairwise_map_flip (c : K) (X : List K) :
    (X.map (fun x => c - x)).reverse.Pairwise (· < ·) ↔ X.Pairwise (· < ·) := by
  rw [List.pairwise_reverse, List.pairwise_map]
  constructor <;> refine List.Pairwise.imp ?_ <;> intro p q h <;> linarith

theorem refuses_flip {least : Nat} (c : K) (X Y : List K) :
    refuses least (X.map (fun x => c - x)).reverse Y.reverse = refuses least X Y := by
  rw [Bool.eq_iff_iff, ← not_iff_not, Bool.not_eq_true, Bool.not_eq_true, refuses_iff, refuses_iff, pairwise_map_flip]
  simp

/-- Affine change of time and values. -/
def Equivariant (f : Interp K) : Prop :=
  ∀ a e c b : K, 0 < a → c ≠ 0 → ∀ X Y t : List K,
    f (X.map (fun x => a * x + e)) (Y.map (fun y => c * y + b)) (t.map (fun x => a * x + e)) =
      (f X Y t).map (fun q => q.map (fun y => c * y + b))

theorem viaSlopes_equivariant {least : Nat} {sl : SlopeRule K} (hr : Rule least sl) : Equivariant (viaSlopes least sl) := by
  intro a e c b ha hc X Y t
  unfold viaSlopes
  rw [refuses_affine ha]
  by_cases h : refuses least X Y = true
  · rw [if_pos h, if_pos h]; rfl
  · rw [if_neg h, if_neg h]
    rw [Bool.not_eq_true, refuses_iff] at h
    obtain ⟨h1, h2, h3⟩ := h
    have hx : ∀ i < X.length, entry (X.map (fun x => a * x + e)) i = a * entry X i + e := fun i hi => entry_map X _ i hi
    have hy : ∀ i < X.length, entry (Y.map (fun y => c * y + b)) i = c * entry Y i + b := fun i hi => entry_map Y _ i (by omega)
    have hI := incr_entry h3
    simp only [Option.map_some, List.map_map, List.length_map]
    congr 1
    apply List.map_congr_left
    intro τ _
    simp only [Function.comp]
    exact cubicAt_scaled ha (hr.two.trans h1) hI hx hy
      (hr.scaled (scaled_of ha.ne' hx hy) ha (div_ne_zero hc ha.ne') hI (incr_scaled ha hI hx) h1) τ

theorem linear_equivariant : Equivariant (linear : Interp K) := by
  intro a e c b ha hc X Y t
  unfold linear
  rw [refuses_affine ha]
  by_cases h : refuses 2 X Y = true
  · rw [if_pos h, if_pos h]; rfl
  · rw [if_neg h, if_neg h]
    rw [Bool.not_eq_true, refuses_iff] at h
    obtain ⟨h1, h2, h3⟩ := h
    have hx : ∀ i < X.length, entry (X.map (fun x => a * x + e)) i = a * entry X i + e := fun i hi => entry_map X _ i hi
    have hy : ∀ i < X.length, entry (Y.map (fun y => c * y + b)) i = c * entry Y i + b := fun i hi => entry_map Y _ i (by omega)
    simp only [Option.map_some, List.map_map, List.length_map]
    congr 1
    apply List.map_congr_left
    intro τ _
    simp only [Function.comp]
    exact linearAt_scaled ha h1 (incr_entry h3) hx hy τ

theorem Equivariant.odd {f : Interp K} (h : Equivariant f) : Odd f := by
  intro X Y t
  have := h 1 0 (-1) 0 one_pos (by simp) X Y t
  simpa using this

theorem Equivariant.affine {f : Interp K} (h : Equivariant f) : AffineInterp f := by
  intro c b hc X Y t
  have := h 1 0 c b one_pos hc.ne' X Y t
  simpa using this

theorem Equivariant.timeFree {f : Interp K} (h : Equivariant f) : TimeFree f := by
  intro c b hc X Y t
  have := h c b 1 0 hc one_ne_zero X Y t
  simpa using this

theorem range_entry {X : List K} {t : List K} (hn : 1 ≤ X.length)
    (h : ∀ τ ∈ t, ∃ a b, X.head? = some a ∧ X.getLast? = some b ∧ a ≤ τ ∧ τ ≤ b) :
    ∀ τ ∈ t, entry X 0 ≤ τ ∧ τ ≤ entry X (X.length - 1) := by
  intro τ hτ
  obtain ⟨a, b, h1, h2, h3, h4⟩ := h τ hτ
  rw [List.head?_eq_getElem?, List.getElem?_eq_getElem (by omega)] at h1
  rw [List.getLast?_eq_getElem?, List.getElem?_eq_getElem (by omega)] at h2
  rw [entry_eq _ _ (by omega), entry_eq _ _ (by omega)]
  injection h1 with h1
  injection h2 with h2
  rw [h1, h2]
  exact ⟨h3, h4⟩

theorem viaSlopes_reversible {least : Nat} {sl : SlopeRule K} (hr : Rule least sl) : Reversible (viaSlopes least sl) := by
  intro c X Y t h3 hlen hX ht
  unfold viaSlopes
  rw [refuses_flip]
  by_cases h : refuses least X Y = true
  · rw [if_pos h, if_pos h]; rfl
  · rw [if_neg h, if_neg h]
    rw [Bool.not_eq_true, refuses_iff] at h
    obtain ⟨h1, h2, -⟩ := h
    have hx : ∀ i < X.length, entry (X.map (fun x => c - x)).reverse i = c - entry X (X.length - 1 - i) := by
      intro i hi
      rw [entry_reverse _ _ (by simpa using hi), List.length_map, entry_map _ _ _ (by omega)]
    have hy : ∀ i < X.length, entry Y.reverse i = entry Y (X.length - 1 - i) := by
      intro i hi
      rw [entry_reverse _ _ (by omega), hlen]
    have hI := incr_entry hX
    have hrg := range_entry (by omega) ht
    simp only [Option.map_some, List.length_reverse, List.length_map, ← List.map_reverse, List.map_map] at hx ⊢
    congr 1
    apply List.map_congr_left
    intro τ hτ
    rw [List.mem_reverse] at hτ
    simp only [Function.comp]
    exact cubicAt_rev (by omega) hI hx hy (hr.rev (rev_of hx hy) hI (incr_rev hI hx) h1) τ (hrg τ hτ).1 (hrg τ hτ).2

theorem linear_reversible : Reversible (linear : Interp K) := by
  intro c X Y t h3 hlen hX ht
  unfold linear
  rw [refuses_flip]
  by_cases h : refuses 2 X Y = true
  · rw [if_pos h, if_pos h]; rfl
  · rw [if_neg h, if_neg h]
    have hx : ∀ i < X.length, entry (X.map (fun x => c - x)).reverse i = c - entry X (X.length - 1 - i) := by
      intro i hi
      rw [entry_reverse _ _ (by simpa using hi), List.length_map, entry_map _ _ _ (by omega)]
    have hy : ∀ i < X.length, entry Y.reverse i = entry Y (X.length - 1 - i) := by
      intro i hi
      rw [entry_reverse _ _ (by omega), hlen]
    have hrg := range_entry (by omega) ht
    simp only [Option.map_some, List.length_reverse, List.length_map, ← List.map_reverse, List.map_map] at hx ⊢
    congr 1
    apply List.map_congr_left
    intro τ hτ
    rw [List.mem_reverse] at hτ
    simp only [Function.comp]
    exact linearAt_rev (by omega) (incr_entry hX) hx hy τ (hrg τ hτ).1 (hrg τ hτ).2

theorem viaSlopes_accepts {least : Nat} {sl : SlopeRule K} (hl : least ≤ 3) : Accepts (viaSlopes least sl) := by
  intro X Y t h3 hlen hX _
  have : refuses least X Y = false := (refuses_iff _ _ _).2 ⟨by omega, hlen, hX⟩
  exact ⟨_, by unfold viaSlopes; rw [this]; rfl, by simp⟩

theorem linear_accepts : Accepts (linear : Interp K) := by
  intro X Y t h3 hlen hX _
  have : refuses 2 X Y = false := (refuses_iff _ _ _).2 ⟨by omega, hlen, hX⟩
  exact ⟨_, by unfold linear; rw [this]; rfl, by simp⟩

theorem knot_interval {n : Nat} (i : Nat) (hn : 2 ≤ n) (hi : i < n) : ∃ k, k + 1 < n ∧ (i = k ∨ i = k + 1) := by
  by_cases h : i + 1 < n
  · exact ⟨i, h, .inl rfl⟩
  · exact ⟨i - 1, by omega, .inr (by omega)⟩

theorem cubicAt_knot {n : Nat} {x y d : Nat → K} (hx : Incr n x) (hn : 2 ≤ n) (i : Nat) (hi : i < n) : cubicAt x y d n (x i) = y i := by
  obtain ⟨k, hk, rfl | rfl⟩ := knot_interval i hn hi
  · rw [cubicAt_eq _ _ _ _ _ hx i hk le_rfl (hx i hk).le, piece_left]
  · rw [cubicAt_eq _ _ _ _ _ hx k hk (hx k hk).le le_rfl, piece_right _ _ _ _ (hx.dx_pos hk).ne']

theorem linearAt_knot {n : Nat} {x y : Nat → K} (hx : Incr n x) (hn : 2 ≤ n) (i : Nat) (hi : i < n) : linearAt x y n (x i) = y i := by
  obtain ⟨k, hk, rfl | rfl⟩ := knot_interval i hn hi
  · rw [linearAt_eq _ _ _ _ hx i hk le_rfl (hx i hk).le]; ring
  · rw [linearAt_eq _ _ _ _ hx k hk (hx k hk).le le_rfl, secant]
    have : x (k + 1) - x k = dx x k := rfl
    rw [this]
    have := (hx.dx_pos hk).ne'
    field_simp
    ring

theorem through_of {X Y t : List K} {g : K → K} (hlen : X.length = Y.length) (hg : ∀ i < X.length, g (entry X i) = entry Y i) :
    (t.map g).length = t.length ∧ ∀ i j, i < X.length → j < t.length → X[i]? = t[j]? → (t.map g)[j]? = Y[i]? := by
  refine ⟨by simp, ?_⟩
  intro i j hi hj h
  rw [List.getElem?_eq_getElem hi, List.getElem?_eq_getElem hj] at h
  injection h with h
  rw [List.getElem?_map, List.getElem?_eq_getElem hj, List.getElem?_eq_getElem (hlen ▸ hi), Option.map_some, ← h]
  have := hg i hi
  rw [entry_eq _ _ hi, entry_eq _ _ (hlen ▸ hi)] at this
  rw [this]

theorem viaSlopes_through {least : Nat} {sl : SlopeRule K} (hl : 2 ≤ least) : PassesThrough (viaSlopes least sl) := by
  intro X Y t q hX hlen h
  unfold viaSlopes at h
  split at h
  · exact absurd h (by simp)
  · rename_i hr
    rw [Bool.not_eq_true, refuses_iff] at hr
    injection h with h
    subst h
    exact through_of hlen (fun i hi => cubicAt_knot (incr_entry hX) (hl.trans hr.1) i hi)

theorem linear_through : PassesThrough (linear : Interp K) := by
  intro X Y t q hX hlen h
  unfold linear at h
  split at h
  · exact absurd h (by simp)
  · rename_i hr
    rw [Bool.not_eq_true, refuses_iff] at hr
    injection h with h
    subst h
    exact through_of hlen (fun i hi => linearAt_knot (incr_entry hX) hr.1 i hi)

theorem secant_line {X : List K} (hX : X.Pairwise (· < ·)) (a b : K) (i : Nat) (hi : i + 1 < X.length) :
    secant (entry X) (entry (X.map (fun x => a * x + b))) i = a := by
  have := ((incr_entry hX).dx_pos hi).ne'
  unfold secant
  rw [entry_map _ _ _ hi, entry_map _ _ _ (by omega), div_eq_iff this, dx]
  ring

theorem viaSlopes_lines {least : Nat} {sl : SlopeRule K} (hr : Rule least sl) : KeepsLines (viaSlopes least sl) := by
  intro X t q a b hX h
  unfold viaSlopes at h
  split at h
  · exact absurd h (by simp)
  · rename_i hf
    rw [Bool.not_eq_true, refuses_iff] at hf
    injection h with h
    subst h
    have h2 := hr.two.trans hf.1
    have hI := incr_entry hX
    have hd := hr.line (m := a) hI hf.1 (secant_line hX a b)
    apply List.map_congr_left
    intro τ _
    unfold cubicAt
    have hk := interval_le (entry X) τ (X.length - 2)
    generalize interval (entry X) τ (X.length - 2) = k at hk
    rw [piece_eq, hd k (by omega), hd (k + 1) (by omega), secant_line hX a b k (by omega), entry_map _ _ _ (by omega)]
    ring

theorem linear_lines : KeepsLines (linear : Interp K) := by
  intro X t q a b hX h
  unfold linear at h
  split at h
  · exact absurd h (by simp)
  · rename_i hf
    rw [Bool.not_eq_true, refuses_iff] at hf
    injection h with h
    subst h
    apply List.map_congr_left
    intro τ _
    unfold linearAt
    simp only
    have hk := interval_le (entry X) τ (X.length - 2)
    generalize interval (entry X) τ (X.length - 2) = k at hk
    rw [secant_line hX a b k (by omega), entry_map _ _ _ (by omega)]
    ring

/-! ### No overshoot -/

/-- A slope at an end of a segment with secant slope `m` for which the cubic is monotone. -/
def Tame (m d : K) : Prop := (0 ≤ m → 0 ≤ d ∧ d ≤ 3 * m) ∧ (m ≤ 0 → 3 * m ≤ d ∧ d ≤ 0)

theorem Tame.neg {m d : K} (h : Tame m d) : Tame (-m) (-d) :=
  ⟨fun hm => ⟨by linarith [(h.2 (by linarith)).2], by linarith [(h.2 (by linarith)).1]⟩,
    fun hm => ⟨by linarith [(h.1 (by linarith)).2], by linarith [(h.1 (by linarith)).1]⟩⟩

theorem Tame.of_neg {m d : K} (h : Tame (-m) (-d)) : Tame m d := by simpa using h.neg

theorem bern {A B D s : K} (hs0 : 0 ≤ s) (hs1 : s ≤ 1) (a0 : 0 ≤ A) (a1 : A ≤ 3 * D) (b0 : 0 ≤ B) (b1 : B ≤ 3 * D) (hD : 0 ≤ D) :
    0 ≤ A * s * (1 - s) ^ 2 + (3 * D - B) * s ^ 2 * (1 - s) + D * s ^ 3 ∧
      A * s * (1 - s) ^ 2 + (3 * D - B) * s ^ 2 * (1 - s) + D * s ^ 3 ≤ D := by
  have u : 0 ≤ 1 - s := by linarith
  constructor
  · have := mul_nonneg (mul_nonneg a0 hs0) (sq_nonneg (1 - s))
    have := mul_nonneg (mul_nonneg (sub_nonneg.2 b1) (sq_nonneg s)) u
    have := mul_nonneg hD (pow_nonneg hs0 3)
    linarith
  · have e : D - (A * s * (1 - s) ^ 2 + (3 * D - B) * s ^ 2 * (1 - s) + D * s ^ 3) =
        D * (1 - s) ^ 3 + (3 * D - A) * s * (1 - s) ^ 2 + B * s ^ 2 * (1 - s) := by ring
    have := mul_nonneg hD (pow_nonneg u 3)
    have := mul_nonneg (mul_nonneg (sub_nonneg.2 a1) hs0) (sq_nonneg (1 - s))
    have := mul_nonneg (mul_nonneg b0 (sq_nonneg s)) u
    linarith

theorem piece_bern (x y d : Nat → K) (i : Nat) (t : K) (h : 0 < dx x i) :
    piece x y d i t = y i + (dx x i * d i * ((t - x i) / dx x i) * (1 - (t - x i) / dx x i) ^ 2 +
      (3 * (dx x i * secant x y i) - dx x i * d (i + 1)) * ((t - x i) / dx x i) ^ 2 * (1 - (t - x i) / dx x i) +
      dx x i * secant x y i * ((t - x i) / dx x i) ^ 3) := by
  rw [piece_eq]
  field_simp
  ring

theorem piece_between {x y d : Nat → K} {i : Nat} {t : K} (h : 0 < dx x i) (h1 : x i ≤ t) (h2 : t ≤ x (i + 1))
    (t0 : Tame (secant x y i) (d i)) (t1 : Tame (secant x y i) (d (i + 1))) :
    min (y i) (y (i + 1)) ≤ piece x y d i t ∧ piece x y d i t ≤ max (y i) (y (i + 1)) := by
  rw [piece_bern x y d i t h]
  have hs0 : 0 ≤ (t - x i) / dx x i := div_nonneg (by linarith) h.le
  have hs1 : (t - x i) / dx x i ≤ 1 := by rw [div_le_one h]; unfold dx; linarith
  have hD : y (i + 1) = y i + dx x i * secant x y i := by unfold secant; field_simp; ring
  generalize (t - x i) / dx x i = s at *
  rcases le_total 0 (secant x y i) with hm | hm
  · have p := mul_nonneg h.le hm
    have := bern (A := dx x i * d i) (B := dx x i * d (i + 1)) (D := dx x i * secant x y i) hs0 hs1
      (mul_nonneg h.le (t0.1 hm).1) (by linarith [mul_le_mul_of_nonneg_left (t0.1 hm).2 h.le])
      (mul_nonneg h.le (t1.1 hm).1) (by linarith [mul_le_mul_of_nonneg_left (t1.1 hm).2 h.le]) p
    rw [hD, min_eq_left (by linarith), max_eq_right (by linarith)]
    constructor <;> linarith
  · have p := mul_nonpos_of_nonneg_of_nonpos h.le hm
    have := bern (A := -(dx x i * d i)) (B := -(dx x i * d (i + 1))) (D := -(dx x i * secant x y i)) hs0 hs1
      (by linarith [mul_nonpos_of_nonneg_of_nonpos h.le (t0.2 hm).2]) (by linarith [mul_le_mul_of_nonneg_left (t0.2 hm).1 h.le])
      (by linarith [mul_nonpos_of_nonneg_of_nonpos h.le (t1.2 hm).2]) (by linarith [mul_le_mul_of_nonneg_left (t1.2 hm).1 h.le]) (by linarith)
    rw [hD, min_eq_right (by linarith), max_eq_left (by linarith)]
    constructor
    · have h5 := this.2; linarith
    · have h5 := this.1; linarith

theorem pchipEnd_tame {h0 h1 : K} (p0 : 0 < h0) (p1 : 0 < h1) (m0 m1 : K) : Tame m0 (pchipEnd h0 h1 m0 m1) := by
  have main : ∀ m0 m1 : K, 0 < m0 → Tame m0 (pchipEnd h0 h1 m0 m1) := by
    intro m0 m1 hm
    unfold pchipEnd
    simp only [lit_two, lit_three, lit_zero]
    split_ifs with c1 c2
    · exact ⟨fun _ => ⟨le_rfl, by linarith⟩, fun h => absurd h (not_le.2 hm)⟩
    · exact ⟨fun _ => ⟨by linarith, by linarith⟩, fun h => absurd h (not_le.2 hm)⟩
    · rw [not_not] at c1
      have hd : 0 < ((2 * h0 + h1) * m0 - h0 * m1) / (h0 + h1) := by
        rw [sgn_pos hm] at c1
        by_contra hn
        rcases lt_or_eq_of_le (not_lt.1 hn) with h | h
        · rw [sgn_neg' h] at c1; omega
        · rw [h, sgn_zero] at c1; omega
      refine ⟨fun _ => ⟨hd.le, ?_⟩, fun h => absurd h (not_le.2 hm)⟩
      by_cases hs : sgn m0 = sgn m1
      · have hm1 : 0 < m1 := by
          rw [sgn_pos hm] at hs
          by_contra hn
          rcases lt_or_eq_of_le (not_lt.1 hn) with h | h
          · rw [sgn_neg' h] at hs; omega
          · rw [h, sgn_zero] at hs; omega
        rw [div_le_iff₀ (by linarith)]
        nlinarith [mul_pos p0 hm, mul_pos p1 hm, mul_pos p0 hm1]
      · have := not_lt.1 (fun h => c2 ⟨hs, h⟩)
        rw [pyAbs_eq, pyAbs_eq, abs_of_pos hd, abs_of_pos hm] at this
        exact this
  rcases lt_trichotomy m0 0 with h | h | h
  · apply Tame.of_neg
    rw [← pchipEnd_neg]
    exact main _ _ (by linarith)
  · subst h
    have : pchipEnd h0 h1 0 m1 = 0 := by
      unfold pchipEnd
      simp only [lit_two, lit_three, lit_zero]
      split_ifs with c1 c2
      · rfl
      · ring
      · rw [not_not, sgn_zero] at c1
        by_contra hn
        exact sgn_ne_zero hn c1
    rw [this]
    exact ⟨fun _ => by simp, fun _ => by simp⟩
  · exact main _ _ h

theorem harmonic_tame {h0 h1 m0 m1 : K} (p0 : 0 < h0) (p1 : 0 < h1) (q0 : 0 < m0) (q1 : 0 < m1) :
    0 ≤ 1 / (((2 * h1 + h0) / m0 + (h1 + 2 * h0) / m1) / ((2 * h1 + h0) + (h1 + 2 * h0))) ∧
      1 / (((2 * h1 + h0) / m0 + (h1 + 2 * h0) / m1) / ((2 * h1 + h0) + (h1 + 2 * h0))) ≤ 3 * m0 ∧
      1 / (((2 * h1 + h0) / m0 + (h1 + 2 * h0) / m1) / ((2 * h1 + h0) + (h1 + 2 * h0))) ≤ 3 * m1 := by
  have e : 1 / (((2 * h1 + h0) / m0 + (h1 + 2 * h0) / m1) / ((2 * h1 + h0) + (h1 + 2 * h0))) =
      (3 * h0 + 3 * h1) * m0 * m1 / ((2 * h1 + h0) * m1 + (h1 + 2 * h0) * m0) := by
    field_simp
    ring
  have w : 0 < (2 * h1 + h0) * m1 + (h1 + 2 * h0) * m0 := by positivity
  rw [e]
  refine ⟨by positivity, ?_, ?_⟩
  · rw [div_le_iff₀ w]
    nlinarith [mul_pos (mul_pos p1 q0) q1, mul_pos (mul_pos p1 q0) q0, mul_pos (mul_pos p0 q0) q0]
  · rw [div_le_iff₀ w]
    nlinarith [mul_pos (mul_pos p0 q0) q1, mul_pos (mul_pos p1 q1) q1, mul_pos (mul_pos p0 q1) q1]

theorem sgn_pos_iff {a : K} : sgn a = 1 ↔ 0 < a := by
  constructor
  · intro h
    rcases lt_trichotomy a 0 with c | c | c
    · rw [sgn_neg' c] at h; omega
    · rw [c, sgn_zero] at h; omega
    · exact c
  · exact sgn_pos

theorem sgn_neg_iff {a : K} : sgn a = -1 ↔ a < 0 := by
  constructor
  · intro h
    rcases lt_trichotomy a 0 with c | c | c
    · exact c
    · rw [c, sgn_zero] at h; omega
    · rw [sgn_pos c] at h; omega
  · exact sgn_neg'

theorem pchipSlope_tame {n : Nat} {x y : Nat → K} (hx : Incr n x) (hn : 2 ≤ n) (i : Nat) (hi : i + 1 < n) :
    Tame (secant x y i) (pchipSlope x y n i) ∧ Tame (secant x y i) (pchipSlope x y n (i + 1)) := by
  have zero : ∀ m : K, Tame m 0 := fun m => ⟨fun h => ⟨le_rfl, by linarith⟩, fun h => ⟨by linarith, le_rfl⟩⟩
  have mid : ∀ j, 0 < j → j + 1 < n → Tame (secant x y (j - 1)) (pchipSlope x y n j) ∧ Tame (secant x y j) (pchipSlope x y n j) := by
    intro j j0 j1
    unfold pchipSlope
    rw [if_neg (show ¬ n = 2 by omega), if_neg (show ¬ j = 0 by omega), if_neg (show ¬ j = n - 1 by omega)]
    simp only [lit_one, lit_two, lit_zero]
    have p0 := hx.dx_pos (i := j - 1) (by omega)
    have p1 := hx.dx_pos (i := j) (by omega)
    generalize secant x y (j - 1) = m0
    generalize secant x y j = m1
    generalize dx x (j - 1) = h0 at *
    generalize dx x j = h1 at *
    split_ifs with c
    · exact ⟨zero _, zero _⟩
    · push Not at c
      obtain ⟨c1, c2, c3⟩ := c
      have n0 : m0 ≠ 0 := by simpa using c3
      have n1 : m1 ≠ 0 := by simpa using c2
      rcases lt_or_gt_of_ne n0 with s | s
      · have s1 : m1 < 0 := by rw [← sgn_neg_iff, ← c1]; exact sgn_neg' s
        have := harmonic_tame p0 p1 (neg_pos.2 s) (neg_pos.2 s1)
        have e : 1 / (((2 * h1 + h0) / -m0 + (h1 + 2 * h0) / -m1) / ((2 * h1 + h0) + (h1 + 2 * h0))) =
            -(1 / (((2 * h1 + h0) / m0 + (h1 + 2 * h0) / m1) / ((2 * h1 + h0) + (h1 + 2 * h0)))) := by
          rw [div_neg, div_neg, ← neg_add, neg_div, div_neg]
        rw [e] at this
        exact ⟨⟨fun h => absurd h (not_le.2 s), fun _ => ⟨by linarith, by linarith⟩⟩,
          ⟨fun h => absurd h (not_le.2 s1), fun _ => ⟨by linarith, by linarith⟩⟩⟩
      · have s1 : 0 < m1 := by rw [← sgn_pos_iff, ← c1]; exact sgn_pos s
        have := harmonic_tame p0 p1 s s1
        exact ⟨⟨fun _ => ⟨this.1, this.2.1⟩, fun h => absurd h (not_le.2 s)⟩,
          ⟨fun _ => ⟨this.1, this.2.2⟩, fun h => absurd h (not_le.2 s1)⟩⟩
  by_cases h2 : n = 2
  · have : i = 0 := by omega
    subst this
    have e : ∀ j, pchipSlope x y n j = secant x y 0 := fun j => by unfold pchipSlope; rw [if_pos h2]
    rw [e, e]
    have : Tame (secant x y 0) (secant x y 0) := ⟨fun h => ⟨h, by linarith⟩, fun h => ⟨by linarith, h⟩⟩
    exact ⟨this, this⟩
  constructor
  · by_cases h0 : i = 0
    · subst h0
      have e : pchipSlope x y n 0 = pchipEnd (dx x 0) (dx x 1) (secant x y 0) (secant x y 1) := by
        unfold pchipSlope; rw [if_neg h2, if_pos rfl]
      rw [e]
      exact pchipEnd_tame (hx.dx_pos (by omega)) (hx.dx_pos (by omega)) _ _
    · exact (mid i (by omega) hi).2
  · by_cases h1 : i + 1 = n - 1
    · have e : pchipSlope x y n (i + 1) = pchipEnd (dx x (n - 2)) (dx x (n - 3)) (secant x y (n - 2)) (secant x y (n - 3)) := by
        unfold pchipSlope; rw [if_neg h2, if_neg (by omega), if_pos h1]
      have hi' : i = n - 2 := by omega
      rw [e, hi']
      exact pchipEnd_tame (hx.dx_pos (by omega)) (hx.dx_pos (by omega)) _ _
    · have := (mid (i + 1) (by omega) (by omega)).1
      rwa [Nat.add_sub_cancel] at this

theorem no_overshoot_of {X Y t : List K} {g : K → K} (hlen : X.length = Y.length)
    (hg : ∀ i, i + 1 < X.length → ∀ τ, entry X i ≤ τ → τ ≤ entry X (i + 1) →
      min (entry Y i) (entry Y (i + 1)) ≤ g τ ∧ g τ ≤ max (entry Y i) (entry Y (i + 1))) :
    ∀ (i j : ℕ) (x0 x1 y0 y1 τ v : K), X[i]? = some x0 → X[i + 1]? = some x1 → Y[i]? = some y0 → Y[i + 1]? = some y1 →
      t[j]? = some τ → x0 ≤ τ → τ ≤ x1 → (t.map g)[j]? = some v → min y0 y1 ≤ v ∧ v ≤ max y0 y1 := by
  intro i j x0 x1 y0 y1 τ v e1 e2 e3 e4 e5 h1 h2 e6
  have hi : i + 1 < X.length := by
    by_contra h
    rw [List.getElem?_eq_none (by omega)] at e2
    cases e2
  rw [List.getElem?_eq_getElem (by omega)] at e1 e2 e3 e4
  injection e1 with e1
  injection e2 with e2
  injection e3 with e3
  injection e4 with e4
  rw [List.getElem?_map, e5] at e6
  injection e6 with e6
  have := hg i hi τ (by rw [entry_eq _ _ (by omega), e1]; exact h1) (by rw [entry_eq _ _ hi, e2]; exact h2)
  rw [entry_eq Y _ (by omega), entry_eq Y _ (by omega), e3, e4, e6] at this
  exact this

theorem pchip_no_overshoot : NoOvershoot (pchip : Interp K) := by
  intro X Y t q hX hlen h
  unfold pchip at h
  split at h
  · exact absurd h (by simp)
  · rename_i hr
    rw [Bool.not_eq_true, refuses_iff] at hr
    injection h with h
    subst h
    have hI := incr_entry hX
    apply no_overshoot_of hlen
    intro i hi τ h1 h2
    rw [cubicAt_eq _ _ _ _ _ hI i hi h1 h2]
    have := pchipSlope_tame (y := entry Y) hI hr.1 i hi
    exact piece_between (hI.dx_pos hi) h1 h2 this.1 this.2

theorem linear_no_overshoot : NoOvershoot (linear : Interp K) := by
  intro X Y t q hX hlen h
  unfold linear at h
  split at h
  · exact absurd h (by simp)
  · rename_i hr
    rw [Bool.not_eq_true, refuses_iff] at hr
    injection h with h
    subst h
    have hI := incr_entry hX
    apply no_overshoot_of hlen
    intro i hi τ h1 h2
    rw [linearAt_eq _ _ _ _ hI i hi h1 h2]
    have hd := hI.dx_pos hi
    have u : 0 ≤ τ - entry X i := by linarith
    have v : τ - entry X i ≤ dx (entry X) i := by unfold dx; linarith
    have e : entry Y (i + 1) = entry Y i + secant (entry X) (entry Y) i * dx (entry X) i := by unfold secant; field_simp; ring
    generalize secant (entry X) (entry Y) i = m at *
    rw [e]
    rcases le_total 0 m with hm | hm
    · have a1 := mul_nonneg hm u
      have a2 := mul_le_mul_of_nonneg_left v hm
      rw [min_eq_left (by nlinarith), max_eq_right (by nlinarith)]
      constructor <;> linarith
    · have a1 := mul_nonpos_of_nonpos_of_nonneg hm u
      have a2 := mul_le_mul_of_nonpos_left v hm
      rw [min_eq_right (by nlinarith), max_eq_left (by nlinarith)]
      constructor <;> linarith

end Scipy
end PyEMD
