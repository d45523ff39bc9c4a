import Verif.Lemmas.ExtremaSimple

/-!
# Simple extremum detection against its specification
-/

set_option linter.unusedSectionVars false

namespace PyEMD
namespace EMD

variable {K : Type} [Field K] [LinearOrder K] [IsStrictOrderedRing K] [FloorRing K]

/-- A flat piece `l..r` entered with a difference in `P` and left with one in `Q`. -/
structure Peak (P Q : K → Bool) (S : List K) (l r : Nat) : Prop where
  left : 1 ≤ l
  le : l ≤ r
  lt : r + 1 < S.length
  before : P (dAt S (l - 1)) = true
  flat : ∀ j, l ≤ j → j < r → dAt S j = 0
  after : Q (dAt S r) = true

/-- A flat start `0..r` left with `Q`, the last difference being in `P`. -/
structure Start (P Q : K → Bool) (S : List K) (r : Nat) : Prop where
  one_le : 1 ≤ r
  lt : r + 1 < S.length
  flat : ∀ j, j < r → dAt S j = 0
  after : Q (dAt S r) = true
  last : P (dAt S (S.length - 2)) = true

theorem mem_reported {P Q : K → Bool} (hP : P 0 = false) (hQ : Q 0 = false) {S : List K} {m : Nat} :
    m ∈ reported P Q S ↔ (∃ l r, Peak P Q S l r ∧ ¬ (l = 1 ∧ l < r) ∧ m = roundHalf (l + r)) ∨
      ∃ r, Start P Q S r ∧ m = roundHalf r := by
  have hP' : ∀ x, P x = true → x ≠ 0 := by
    rintro x h rfl
    rw [hP] at h; cases h
  have hQ' : ∀ x, Q x = true → x ≠ 0 := by
    rintro x h rfl
    rw [hQ] at h; cases h
  rw [(reported_spec P Q hP hQ S).2, mem_jumps, mem_flats]
  constructor
  · rintro (⟨h1, h2, h3, h4⟩ | ⟨s, e, hr, hb, ha, rfl⟩)
    · refine .inl ⟨m, m, ⟨h1, le_refl _, h2, h3, fun j hj hj' => by omega, h4⟩, by omega, ?_⟩
      unfold roundHalf
      rw [if_pos (by omega)]; omega
    · obtain ⟨g1, g2, g3, g4, g5, g6⟩ := mem_usedRuns.1 hr
      by_cases hs : s = 0
      · subst hs
        right
        rw [dBefore, if_pos rfl] at hb
        exact ⟨e, ⟨by omega, g2, fun j hj => g3 j (by omega) hj, ha, hb⟩, by rw [Nat.zero_add]⟩
      · rw [dBefore, if_neg hs] at hb
        exact .inl ⟨s, e, ⟨by omega, g1.le, g2, hb, g3, ha⟩, by omega, rfl⟩
  · rintro (⟨l, r, h, hn, rfl⟩ | ⟨r, h, rfl⟩)
    · rcases h.le.eq_or_lt with he | hlt
      · subst he
        left
        have : roundHalf (l + l) = l := by
          unfold roundHalf
          rw [if_pos (by omega)]; omega
        rw [this]
        exact ⟨h.left, h.lt, h.before, h.after⟩
      · right
        have hl := h.left
        refine ⟨l, r, mem_usedRuns.2 ⟨hlt, h.lt, h.flat, .inr (hP' _ h.before), hQ' _ h.after, by omega⟩, ?_, h.after, rfl⟩
        rw [dBefore, if_neg (by omega)]
        exact h.before
    · right
      refine ⟨0, r, mem_usedRuns.2 ⟨h.one_le, h.lt, fun j _ hj => h.flat j hj, .inl rfl, hQ' _ h.after, by omega⟩, ?_,
        h.after, by rw [Nat.zero_add]⟩
      rw [dBefore, if_pos rfl]
      exact h.last

/-! ### Translation to the specification -/

theorem flat_iff {S : List K} {l r : Nat} (hle : l ≤ r) (hr : r < S.length) :
    (∀ j, l ≤ j → j < r → dAt S j = 0) ↔ ∀ i, l ≤ i → i ≤ r → S[i]? = some (sAt S l) := by
  constructor
  · intro h i hi hi'
    induction i, hi using Nat.le_induction with
    | base => exact getElem?_sAt (by omega)
    | succ i hi ih =>
      have h1 := ih (by omega)
      have h2 := h i hi (by omega)
      rw [getElem?_sAt (by omega)] at h1 ⊢
      rw [dAt_eq (by omega), sub_eq_zero] at h2
      rw [h2]; exact h1
  · intro h j hj hj'
    have h1 := h j hj (by omega)
    have h2 := h (j + 1) (by omega) (by omega)
    rw [getElem?_sAt (by omega), Option.some.injEq] at h1 h2
    rw [dAt_eq (by omega), h1, h2, sub_self]

theorem peak_top {S : List K} {l r : Nat} : Peak isPos isNeg S l r ↔ Spec.IsTop S l r := by
  constructor
  · rintro ⟨h1, h2, h3, h4, h5, h6⟩
    simp only [isPos, isNeg, decide_eq_true_eq] at h4 h6
    have hf := (flat_iff h2 (by omega)).1 h5
    have hr := hf r h2 (le_refl _)
    rw [getElem?_sAt (by omega), Option.some.injEq] at hr
    rw [dAt_eq (by omega), show l - 1 + 1 = l by omega] at h4
    rw [dAt_eq (by omega), hr] at h6
    exact ⟨h1, h2, sAt S l, sAt S (l - 1), sAt S (r + 1), hf, getElem?_sAt (by omega), getElem?_sAt (by omega),
      by linarith, by linarith⟩
  · rintro ⟨h1, h2, v, a, b, hf, ha, hb, hav, hbv⟩
    have h3 : r + 1 < S.length := (List.getElem?_eq_some_iff.1 hb).1
    have hv := hf l (le_refl _) h2
    have hv' := hf r h2 (le_refl _)
    rw [getElem?_sAt (by omega), Option.some.injEq] at hv hv' ha hb
    refine ⟨h1, h2, h3, ?_, (flat_iff h2 (by omega)).2 (by rw [hv]; exact hf), ?_⟩
    · simp only [isPos, decide_eq_true_eq]
      rw [dAt_eq (by omega), show l - 1 + 1 = l by omega, hv, ha]; linarith
    · simp only [isNeg, decide_eq_true_eq]
      rw [dAt_eq (by omega), hb, hv']; linarith

theorem peak_bottom {S : List K} {l r : Nat} : Peak isNeg isPos S l r ↔ Spec.IsBottom S l r := by
  constructor
  · rintro ⟨h1, h2, h3, h4, h5, h6⟩
    simp only [isPos, isNeg, decide_eq_true_eq] at h4 h6
    have hf := (flat_iff h2 (by omega)).1 h5
    have hr := hf r h2 (le_refl _)
    rw [getElem?_sAt (by omega), Option.some.injEq] at hr
    rw [dAt_eq (by omega), show l - 1 + 1 = l by omega] at h4
    rw [dAt_eq (by omega), hr] at h6
    exact ⟨h1, h2, sAt S l, sAt S (l - 1), sAt S (r + 1), hf, getElem?_sAt (by omega), getElem?_sAt (by omega),
      by linarith, by linarith⟩
  · rintro ⟨h1, h2, v, a, b, hf, ha, hb, hav, hbv⟩
    have h3 : r + 1 < S.length := (List.getElem?_eq_some_iff.1 hb).1
    have hv := hf l (le_refl _) h2
    have hv' := hf r h2 (le_refl _)
    rw [getElem?_sAt (by omega), Option.some.injEq] at hv hv' ha hb
    refine ⟨h1, h2, h3, ?_, (flat_iff h2 (by omega)).2 (by rw [hv]; exact hf), ?_⟩
    · simp only [isNeg, decide_eq_true_eq]
      rw [dAt_eq (by omega), show l - 1 + 1 = l by omega, hv, ha]; linarith
    · simp only [isPos, decide_eq_true_eq]
      rw [dAt_eq (by omega), hb, hv']; linarith

theorem start_falls {S : List K} {r : Nat} : Start isPos isNeg S r ↔ Spec.FlatStartFalls S r := by
  constructor
  · rintro ⟨h1, h3, h5, h6, h4⟩
    simp only [isPos, isNeg, decide_eq_true_eq] at h4 h6
    have hf := (flat_iff (Nat.zero_le r) (by omega)).1 (fun j _ hj => h5 j hj)
    have hr := hf r (by omega) (le_refl _)
    rw [getElem?_sAt (by omega), Option.some.injEq] at hr
    rw [dAt_eq (by omega)] at h4
    rw [dAt_eq (by omega), hr] at h6
    refine ⟨h1, ⟨sAt S 0, sAt S (r + 1), fun i hi => hf i (by omega) hi, getElem?_sAt h3, by linarith⟩,
      sAt S (S.length - 2), sAt S (S.length - 1), getElem?_sAt (by omega), getElem?_sAt (by omega), ?_⟩
    rw [show S.length - 2 + 1 = S.length - 1 by omega] at h4
    linarith
  · rintro ⟨h1, ⟨v, b, hf, hb, hbv⟩, y, z, hy, hz, hyz⟩
    have h3 : r + 1 < S.length := (List.getElem?_eq_some_iff.1 hb).1
    have hv := hf 0 (by omega)
    have hv' := hf r (le_refl _)
    rw [getElem?_sAt (by omega), Option.some.injEq] at hv hv' hb hy hz
    refine ⟨h1, h3, fun j hj => (flat_iff (Nat.zero_le r) (by omega)).2 (fun i _ hi => by rw [hv]; exact hf i hi) j (by omega) hj,
      ?_, ?_⟩
    · simp only [isNeg, decide_eq_true_eq]
      rw [dAt_eq (by omega), hb, hv']; linarith
    · simp only [isPos, decide_eq_true_eq]
      rw [dAt_eq (by omega), show S.length - 2 + 1 = S.length - 1 by omega, hy, hz]; linarith

theorem start_rises {S : List K} {r : Nat} : Start isNeg isPos S r ↔ Spec.FlatStartRises S r := by
  constructor
  · rintro ⟨h1, h3, h5, h6, h4⟩
    simp only [isPos, isNeg, decide_eq_true_eq] at h4 h6
    have hf := (flat_iff (Nat.zero_le r) (by omega)).1 (fun j _ hj => h5 j hj)
    have hr := hf r (by omega) (le_refl _)
    rw [getElem?_sAt (by omega), Option.some.injEq] at hr
    rw [dAt_eq (by omega)] at h4
    rw [dAt_eq (by omega), hr] at h6
    refine ⟨h1, ⟨sAt S 0, sAt S (r + 1), fun i hi => hf i (by omega) hi, getElem?_sAt h3, by linarith⟩,
      sAt S (S.length - 2), sAt S (S.length - 1), getElem?_sAt (by omega), getElem?_sAt (by omega), ?_⟩
    rw [show S.length - 2 + 1 = S.length - 1 by omega] at h4
    linarith
  · rintro ⟨h1, ⟨v, b, hf, hb, hbv⟩, y, z, hy, hz, hyz⟩
    have h3 : r + 1 < S.length := (List.getElem?_eq_some_iff.1 hb).1
    have hv := hf 0 (by omega)
    have hv' := hf r (le_refl _)
    rw [getElem?_sAt (by omega), Option.some.injEq] at hv hv' hb hy hz
    refine ⟨h1, h3, fun j hj => (flat_iff (Nat.zero_le r) (by omega)).2 (fun i _ hi => by rw [hv]; exact hf i hi) j (by omega) hj,
      ?_, ?_⟩
    · simp only [isPos, decide_eq_true_eq]
      rw [dAt_eq (by omega), hb, hv']; linarith
    · simp only [isNeg, decide_eq_true_eq]
      rw [dAt_eq (by omega), show S.length - 2 + 1 = S.length - 1 by omega, hy, hz]; linarith

theorem isPos_zero : isPos (0 : K) = false := by simp [isPos]
theorem isNeg_zero : isNeg (0 : K) = false := by simp [isNeg]

/-- Maxima and minima as the detection lists them. -/
theorem mem_maxima {S : List K} {m : Nat} : m ∈ reported isPos isNeg S ↔
    (∃ l r, Spec.IsTop S l r ∧ ¬ (l = 1 ∧ l < r) ∧ Spec.IsMiddle l r m) ∨
      ∃ r, Spec.FlatStartFalls S r ∧ Spec.IsMiddle 0 r m := by
  rw [mem_reported isPos_zero isNeg_zero]
  simp only [peak_top, start_falls, isMiddle_iff, Nat.zero_add]

theorem mem_minima {S : List K} {m : Nat} : m ∈ reported isNeg isPos S ↔
    (∃ l r, Spec.IsBottom S l r ∧ ¬ (l = 1 ∧ l < r) ∧ Spec.IsMiddle l r m) ∨
      ∃ r, Spec.FlatStartRises S r ∧ Spec.IsMiddle 0 r m := by
  rw [mem_reported isNeg_zero isPos_zero]
  simp only [peak_bottom, start_rises, isMiddle_iff, Nat.zero_add]

theorem reported_lt {P Q : K → Bool} (hP : P 0 = false) (hQ : Q 0 = false) {S : List K} {m : Nat}
    (h : m ∈ reported P Q S) : m + 1 < S.length := by
  rcases (mem_reported hP hQ).1 h with ⟨l, r, g, -, rfl⟩ | ⟨r, g, rfl⟩
  · have := roundHalf_mem g.le
    have := g.lt; omega
  · have := roundHalf_mem (Nat.zero_le r)
    rw [Nat.zero_add] at this
    have := g.lt; omega

theorem maxima_lt {S : List K} {m : Nat} (h : m ∈ reported isPos isNeg S) : m < S.length := by
  have := reported_lt isPos_zero isNeg_zero h; omega

theorem minima_lt {S : List K} {m : Nat} (h : m ∈ reported isNeg isPos S) : m < S.length := by
  have := reported_lt isNeg_zero isPos_zero h; omega

theorem map_sAt_map (f : K → K) (S : List K) (idx : List Nat) (h : ∀ i ∈ idx, i < S.length) :
    idx.map (sAt (S.map f)) = (idx.map (sAt S)).map f := by
  rw [List.map_map]
  apply List.map_congr_left
  intro i hi
  have hlt := h i hi
  simp only [Function.comp, sAt]
  rw [getD_lt _ _ _ (by simpa using hlt), getD_lt _ _ _ hlt, List.getElem_map]

/-! ### Alternation -/

/-- Between a difference in `P` and a later one in `Q` there is a direct transition. -/
theorem exists_transition {P Q : K → Bool} (d : Nat → K) (hPQ : ∀ x, P x = true ∨ Q x = true ∨ x = 0) (n : Nat) :
    ∀ a b : Nat, b - a ≤ n → a < b → P (d a) = true → Q (d b) = true →
    ∃ j k, a ≤ j ∧ j < k ∧ k ≤ b ∧ P (d j) = true ∧ Q (d k) = true ∧ ∀ i, j < i → i < k → d i = 0 := by
  induction n with
  | zero => intro a b h1 h2; omega
  | succ n ih =>
    intro a b hn hab ha hb
    by_cases hz : ∀ i, a < i → i < b → d i = 0
    · exact ⟨a, b, le_refl _, hab, le_refl _, ha, hb, hz⟩
    · push Not at hz
      obtain ⟨i, h1, h2, h3⟩ := hz
      rcases hPQ (d i) with h | h | h
      · obtain ⟨j, k, g1, g2, g3, g4⟩ := ih i b (by omega) h2 h hb
        exact ⟨j, k, by omega, g2, g3, g4⟩
      · obtain ⟨j, k, g1, g2, g3, g4⟩ := ih a i (by omega) h1 ha h
        exact ⟨j, k, g1, g2, by omega, g4⟩
      · exact absurd h h3

/-- `m` is the middle of a flat piece left with `Q`, and entered with `P` unless it is at the start. -/
def Block (P Q : K → Bool) (S : List K) (m : Nat) : Prop :=
  ∃ l r, m = roundHalf (l + r) ∧ l ≤ r ∧ 1 ≤ r ∧ r + 1 < S.length ∧
    (∀ j, l ≤ j → j < r → dAt S j = 0) ∧ Q (dAt S r) = true ∧ (l = 0 ∨ P (dAt S (l - 1)) = true)

/-- What a reported index gives: a flat piece around it. -/
theorem reported_block {P Q : K → Bool} (hP : P 0 = false) (hQ : Q 0 = false) {S : List K} {m : Nat}
    (h : m ∈ reported P Q S) : Block P Q S m := by
  rcases (mem_reported hP hQ).1 h with ⟨l, r, g, -, rfl⟩ | ⟨r, g, rfl⟩
  · exact ⟨l, r, rfl, g.le, by have := g.le; have := g.left; omega, g.lt, g.flat, g.after, .inr g.before⟩
  · exact ⟨0, r, by rw [Nat.zero_add], by omega, g.one_le, g.lt, fun j _ hj => g.flat j hj, g.after, .inl rfl⟩

theorem block_alternate {P Q : K → Bool} (hP : P 0 = false) (hQ : Q 0 = false)
    (hPQ : ∀ x, P x = true ∨ Q x = true ∨ x = 0) (hdis : ∀ x, P x = true → Q x = true → False) {S : List K} {m m' : Nat}
    (h : Block P Q S m) (h' : Block P Q S m') (hlt : m < m') :
    ∃ c ∈ reported Q P S, m < c ∧ c < m' := by
  have hP' : ∀ x, P x = true → x ≠ 0 := by
    rintro x h rfl
    rw [hP] at h; cases h
  have hQ' : ∀ x, Q x = true → x ≠ 0 := by
    rintro x h rfl
    rw [hQ] at h; cases h
  obtain ⟨l, r, e, b1, b2, b3, b4, b5, b6⟩ := h
  obtain ⟨l', r', e', c1, c2, c3, c4, c5, c6⟩ := h'
  have hm := roundHalf_mem b1
  have hm' := roundHalf_mem c1
  rw [← e] at hm
  rw [← e'] at hm'
  have hsame : l = l' → r = r' → False := by
    rintro rfl rfl
    omega
  have hrr : l = l' → False := by
    intro hl
    apply hsame hl
    subst hl
    rcases Nat.lt_trichotomy r r' with hh | hh | hh
    · exact absurd (c4 r b1 hh) (hQ' _ b5)
    · exact hh
    · exact absurd (b4 r' c1 hh) (hQ' _ c5)
  have hll : l < l' := by
    rcases Nat.lt_trichotomy l l' with hh | hh | hh
    · exact hh
    · exact (hrr hh).elim
    · rcases b6 with b6 | b6
      · omega
      · exact absurd (c4 (l - 1) (by omega) (by omega)) (hP' _ b6)
  have hP1 : P (dAt S (l' - 1)) = true := by
    rcases c6 with c6 | c6
    · omega
    · exact c6
  have hrl : r < l' := by
    by_contra hc
    exact absurd (b4 (l' - 1) (by omega) (by omega)) (hP' _ hP1)
  have hne : r ≠ l' - 1 := by
    intro hc
    rw [← hc] at hP1
    exact hdis _ hP1 b5
  obtain ⟨j, k, g1, g2, g3, g4, g5, g6⟩ := exists_transition (P := Q) (Q := P) (dAt S)
    (fun x => by rcases hPQ x with h | h | h <;> simp [h]) (l' - 1 - r) r (l' - 1) (le_refl _) (by omega) b5 hP1
  refine ⟨roundHalf (j + 1 + k), (mem_reported hQ hP).2 (.inl ⟨j + 1, k, ⟨by omega, by omega, by omega, ?_, ?_, g5⟩, by omega, rfl⟩), ?_⟩
  · rw [Nat.add_sub_cancel]; exact g4
  · exact fun i hi hi' => g6 i (by omega) hi'
  · have := roundHalf_mem (show j + 1 ≤ k by omega)
    omega

theorem reported_alternate {P Q : K → Bool} (hP : P 0 = false) (hQ : Q 0 = false)
    (hPQ : ∀ x, P x = true ∨ Q x = true ∨ x = 0) (hdis : ∀ x, P x = true → Q x = true → False) {S : List K} {m m' : Nat}
    (h : m ∈ reported P Q S) (h' : m' ∈ reported P Q S) (hlt : m < m') :
    ∃ c ∈ reported Q P S, m < c ∧ c < m' :=
  block_alternate hP hQ hPQ hdis (reported_block hP hQ h) (reported_block hP hQ h') hlt

theorem pos_neg_zero (x : K) : isPos x = true ∨ isNeg x = true ∨ x = 0 := by
  simp only [isPos, isNeg, decide_eq_true_eq]
  rcases lt_trichotomy x 0 with h | h | h
  · exact .inr (.inl h)
  · exact .inr (.inr h)
  · exact .inl h

theorem pos_neg_disjoint (x : K) (h : isPos x = true) (h' : isNeg x = true) : False := by
  simp only [isPos, isNeg, decide_eq_true_eq] at h h'
  exact absurd h (not_lt.2 h'.le)

theorem maxima_alternate {S : List K} {m m' : Nat} (h : m ∈ reported isPos isNeg S) (h' : m' ∈ reported isPos isNeg S)
    (hlt : m < m') : ∃ c ∈ reported isNeg isPos S, m < c ∧ c < m' :=
  reported_alternate isPos_zero isNeg_zero pos_neg_zero pos_neg_disjoint h h' hlt

theorem minima_alternate {S : List K} {m m' : Nat} (h : m ∈ reported isNeg isPos S) (h' : m' ∈ reported isNeg isPos S)
    (hlt : m < m') : ∃ c ∈ reported isPos isNeg S, m < c ∧ c < m' :=
  reported_alternate isNeg_zero isPos_zero (fun x => by rcases pos_neg_zero x with h | h | h <;> simp [h])
    (fun x h h' => pos_neg_disjoint x h' h) h h' hlt

theorem block_disjoint {P Q : K → Bool} (hP : P 0 = false) (hQ : Q 0 = false)
    (hdis : ∀ x, P x = true → Q x = true → False) {S : List K} {m : Nat}
    (h : Block P Q S m) (h' : Block Q P S m) : False := by
  have hP' : ∀ x, P x = true → x ≠ 0 := by
    rintro x h rfl
    rw [hP] at h; cases h
  have hQ' : ∀ x, Q x = true → x ≠ 0 := by
    rintro x h rfl
    rw [hQ] at h; cases h
  obtain ⟨l, r, e, b1, b2, b3, b4, b5, b6⟩ := h
  obtain ⟨l', r', e', c1, c2, c3, c4, c5, c6⟩ := h'
  have hm := roundHalf_mem b1
  have hm' := roundHalf_mem c1
  rw [← e] at hm
  rw [← e'] at hm'
  rcases Nat.lt_trichotomy r r' with hh | hh | hh
  · exact absurd (c4 r (by omega) hh) (hQ' _ b5)
  · subst hh; exact hdis _ c5 b5
  · exact absurd (b4 r' (by omega) hh) (hP' _ c5)

theorem reported_disjoint {P Q : K → Bool} (hP : P 0 = false) (hQ : Q 0 = false)
    (hdis : ∀ x, P x = true → Q x = true → False) {S : List K} {m : Nat}
    (h : m ∈ reported P Q S) (h' : m ∈ reported Q P S) : False :=
  block_disjoint hP hQ hdis (reported_block hP hQ h) (reported_block hQ hP h')

theorem maxima_minima_disjoint {S : List K} {m : Nat} (h : m ∈ reported isPos isNeg S) : m ∉ reported isNeg isPos S :=
  fun h' => reported_disjoint isPos_zero isNeg_zero pos_neg_disjoint h h'

/-- If every two neighbours of `A` have an element of `B` between them, `B` is at most one shorter. -/
theorem length_le_of_between {A B : List Nat} (hA : A.Pairwise (· < ·))
    (h : ∀ a ∈ A, ∀ a' ∈ A, a < a' → ∃ b ∈ B, a < b ∧ b < a') : A.length ≤ B.length + 1 := by
  have key : ∀ (A : List Nat) (x : Nat), (x :: A).Pairwise (· < ·) →
      (∀ a ∈ x :: A, ∀ a' ∈ x :: A, a < a' → ∃ b ∈ B, a < b ∧ b < a') → A.length ≤ (B.filter (fun b => decide (x < b))).length := by
    intro A
    induction A with
    | nil => simp
    | cons y A ih =>
      intro x hp hb
      have hxy : x < y := (List.pairwise_cons.1 hp).1 y (by simp)
      have h1 := ih y (List.pairwise_cons.1 hp).2 (fun a ha a' ha' => hb a (by simp [ha]) a' (by simp [ha']))
      obtain ⟨b, hbB, hb1, hb2⟩ := hb x (by simp) y (by simp) hxy
      have h2 : (B.filter (fun b => decide (y < b))).length < (B.filter (fun b => decide (x < b))).length := by
        have hsub : (B.filter (fun b => decide (y < b))) = (B.filter (fun b => decide (x < b))).filter (fun b => decide (y < b)) := by
          rw [List.filter_filter]
          apply List.filter_congr
          intro z _
          rw [Bool.eq_iff_iff]
          simp only [Bool.and_eq_true, decide_eq_true_eq]
          omega
        rw [hsub]
        apply List.length_filter_lt_length_iff_exists.2
        exact ⟨b, by rw [List.mem_filter]; exact ⟨hbB, by simpa using hb1⟩, by simp; omega⟩
      simp only [List.length_cons]
      omega
  cases A with
  | nil => simp
  | cons x A =>
    have := key A x hA h
    have := List.length_filter_le (fun b => decide (x < b)) B
    simp only [List.length_cons]
    omega

/-! ### `find_extrema` in simple mode -/

theorem pyTake_nat {β : Type} (l : List β) (idx : List Nat) (d : β) (h : ∀ i ∈ idx, i < l.length) :
    pyTake l (idx.map (fun k : Nat => (k : Int))) = .ok (idx.map (fun i => l.getD i d)) := by
  apply pyTake_map
  intro i hi
  rw [pyGet_nat l i (h i hi), getD_lt _ _ _ (h i hi)]

theorem findExtremaSimple_eq (T S : List K) (hT : T.length = S.length) :
    findExtremaSimple T S = .ok
      { maxPos := (reported isPos isNeg S).map (sAt T), maxVal := (reported isPos isNeg S).map (sAt S)
        minPos := (reported isNeg isPos S).map (sAt T), minVal := (reported isNeg isPos S).map (sAt S)
        indzer := zeroCrossings S } := by
  have h1 : ∀ i ∈ reported isPos isNeg S, i < S.length := fun i hi => by
    have := reported_lt isPos_zero isNeg_zero hi; omega
  have h2 : ∀ i ∈ reported isNeg isPos S, i < S.length := fun i hi => by
    have := reported_lt isNeg_zero isPos_zero hi; omega
  unfold findExtremaSimple
  rw [extremaIdx_eq]
  simp only [bind, Except.bind, pure, Except.pure]
  rw [pyTake_nat T _ 0 (by rw [hT]; exact h1), pyTake_nat S _ 0 h1, pyTake_nat T _ 0 (by rw [hT]; exact h2),
    pyTake_nat S _ 0 h2]
  rfl

end EMD
end PyEMD
