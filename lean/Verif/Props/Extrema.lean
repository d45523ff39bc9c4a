import Verif.Lemmas.ExtremaSpec
import Verif.Props.EmdExact

/-!
# Extremum detection, simple mode (C15, C16, C18, C20)
-/

set_option linter.unusedSectionVars false

namespace PyEMD
namespace EMD
open Spec

variable {K : Type} [Field K] [LinearOrder K] [IsStrictOrderedRing K] [FloorRing K]

/-! ## C15 -/

/-- `pos`/`val` are the entries of `T`/`S` at the indices `idx`. -/
def At (T S : List K) (idx : List Nat) (pos val : List K) : Prop :=
  pos.map some = idx.map (fun i => T[i]?) ∧ val.map some = idx.map (fun i => S[i]?)

theorem at_intro {T S : List K} {idx : List Nat} (hT : T.length = S.length) (h : ∀ i ∈ idx, i + 1 < S.length) :
    At T S idx (idx.map (sAt T)) (idx.map (sAt S)) := by
  constructor <;>
  · rw [List.map_map]
    apply List.map_congr_left
    intro i hi
    have := h i hi
    exact (getElem?_sAt (by omega)).symm

/-- C15, the complete characterisation of simple detection.  Reported maxima are the (rounded) middles of the flat tops
that have both neighbours, with two exceptions: a top of two or more samples that starts at index 1 is not reported, and a
flat start that is followed by a fall is reported although it has no left neighbour if the very last step of the signal is
a rise.  The same for minima. -/
theorem C15_characterised (T S : List K) (hT : T.length = S.length) :
    ∃ e mx mn, findExtrema .simple T S = .ok e ∧ mx.Pairwise (· < ·) ∧ mn.Pairwise (· < ·) ∧
      At T S mx e.maxPos e.maxVal ∧ At T S mn e.minPos e.minVal ∧
      (∀ m, m ∈ mx ↔ (∃ l r, IsTop S l r ∧ ¬ (l = 1 ∧ l < r) ∧ IsMiddle l r m) ∨ ∃ r, FlatStartFalls S r ∧ IsMiddle 0 r m) ∧
      (∀ m, m ∈ mn ↔ (∃ l r, IsBottom S l r ∧ ¬ (l = 1 ∧ l < r) ∧ IsMiddle l r m) ∨ ∃ r, FlatStartRises S r ∧ IsMiddle 0 r m) :=
  ⟨_, reported isPos isNeg S, reported isNeg isPos S, findExtremaSimple_eq T S hT,
    (reported_spec _ _ isPos_zero isNeg_zero S).1, (reported_spec _ _ isNeg_zero isPos_zero S).1,
    at_intro hT (fun _ hi => reported_lt isPos_zero isNeg_zero hi),
    at_intro hT (fun _ hi => reported_lt isNeg_zero isPos_zero hi), fun _ => mem_maxima, fun _ => mem_minima⟩

/-- C15 as claimed, for signals whose first two steps are not flat: exactly the middles of the tops/bottoms are reported, in
increasing order.  Missing from the full claim: signals that are flat at index 0 or 1, for which it is false (see the
counterexamples below). -/
theorem C15_exact_partial (T S : List K) (hT : T.length = S.length) (h01 : 2 ≤ S.length → S[0]? ≠ S[1]?)
    (h12 : 3 ≤ S.length → S[1]? ≠ S[2]?) :
    ∃ e mx mn, findExtrema .simple T S = .ok e ∧ mx.Pairwise (· < ·) ∧ mn.Pairwise (· < ·) ∧
      At T S mx e.maxPos e.maxVal ∧ At T S mn e.minPos e.minVal ∧
      (∀ m, m ∈ mx ↔ ∃ l r, IsTop S l r ∧ IsMiddle l r m) ∧ (∀ m, m ∈ mn ↔ ∃ l r, IsBottom S l r ∧ IsMiddle l r m) := by
  obtain ⟨e, mx, mn, h1, h2, h3, h4, h5, h6, h7⟩ := C15_characterised T S hT
  refine ⟨e, mx, mn, h1, h2, h3, h4, h5, fun m => ?_, fun m => ?_⟩
  · rw [h6]
    constructor
    · rintro (⟨l, r, ht, -, hm⟩ | ⟨r, ⟨hr, ⟨v, b, hf, hb, -⟩, -⟩, -⟩)
      · exact ⟨l, r, ht, hm⟩
      · have := (List.getElem?_eq_some_iff.1 hb).1
        exact absurd ((hf 0 (by omega)).trans (hf 1 hr).symm) (h01 (by omega))
    · rintro ⟨l, r, ht, hm⟩
      refine .inl ⟨l, r, ht, ?_, hm⟩
      rintro ⟨rfl, hlr⟩
      obtain ⟨-, -, v, a, b, hf, -, hb, -⟩ := ht
      have := (List.getElem?_eq_some_iff.1 hb).1
      exact h12 (by omega) ((hf 1 (by omega) (by omega)).trans (hf 2 (by omega) (by omega)).symm)
  · rw [h7]
    constructor
    · rintro (⟨l, r, ht, -, hm⟩ | ⟨r, ⟨hr, ⟨v, b, hf, hb, -⟩, -⟩, -⟩)
      · exact ⟨l, r, ht, hm⟩
      · have := (List.getElem?_eq_some_iff.1 hb).1
        exact absurd ((hf 0 (by omega)).trans (hf 1 hr).symm) (h01 (by omega))
    · rintro ⟨l, r, ht, hm⟩
      refine .inl ⟨l, r, ht, ?_, hm⟩
      rintro ⟨rfl, hlr⟩
      obtain ⟨-, -, v, a, b, hf, -, hb, -⟩ := ht
      have := (List.getElem?_eq_some_iff.1 hb).1
      exact h12 (by omega) ((hf 1 (by omega) (by omega)).trans (hf 2 (by omega) (by omega)).symm)

/-- C15 fails: samples 1 and 2 of `[0, 1, 1, 0, 2]` are a top that is not reported; sample 0 of `[1, 1, 0, 2]` is reported
as a maximum although it is an end sample. -/
theorem C15_counterexample :
    (okWith (fun e => e.maxPos == []) (findExtrema .simple [0, 1, 2, 3, 4] ([0, 1, 1, 0, 2] : List ℚ)) = true ∧
      IsTop ([0, 1, 1, 0, 2] : List ℚ) 1 2) ∧
    okWith (fun e => e.maxPos == [0]) (findExtrema .simple [0, 1, 2, 3] ([1, 1, 0, 2] : List ℚ)) = true := by
  refine ⟨⟨by decide +kernel, by decide, by decide, 1, 0, 0, ?_, rfl, rfl, by decide, by decide⟩, by decide +kernel⟩
  intro i h1 h2
  have : i = 1 ∨ i = 2 := by omega
  rcases this with rfl | rfl <;> rfl

/-- A signal meeting the hypotheses of `C15_exact_partial`, with a flat top and a flat bottom. -/
example : okWith (fun e => e.maxPos == [2, 6] && e.minPos == [1, 4] && e.maxVal == [3, 5] && e.minVal == [0, 2])
    (findExtrema .simple [0, 1, 2, 3, 4, 5, 6, 7] ([1, 0, 3, 3, 2, 2, 5, 4] : List ℚ)) = true := by decide +kernel

/-! ## C16 -/

theorem sAt_lt {T : List K} (hT : T.Pairwise (· < ·)) {i j : Nat} (hi : i < T.length) (hj : j < T.length) :
    sAt T i < sAt T j ↔ i < j := by
  have key : ∀ i j, i < j → j < T.length → sAt T i < sAt T j := by
    intro i j hij hj
    unfold sAt
    rw [getD_lt _ _ _ (by omega), getD_lt _ _ _ hj]
    exact List.pairwise_iff_getElem.1 hT i j _ _ hij
  constructor
  · intro h
    by_contra hc
    rcases Nat.lt_or_eq_of_le (not_lt.1 hc) with hh | hh
    · exact absurd (key j i hh hi) (not_lt.2 h.le)
    · rw [hh] at h; exact absurd h (lt_irrefl _)
  · exact fun h => key i j h hj

theorem positions_alternate {T : List K} (hT : T.Pairwise (· < ·)) {A B : List Nat} (hA : ∀ i ∈ A, i < T.length)
    (hB : ∀ i ∈ B, i < T.length) (h : ∀ a ∈ A, ∀ a' ∈ A, a < a' → ∃ b ∈ B, a < b ∧ b < a') :
    ∀ x ∈ A.map (sAt T), ∀ y ∈ A.map (sAt T), x < y → ∃ z ∈ B.map (sAt T), x < z ∧ z < y := by
  simp only [List.mem_map]
  rintro _ ⟨a, ha, rfl⟩ _ ⟨a', ha', rfl⟩ hlt
  obtain ⟨b, hb, h1, h2⟩ := h a ha a' ha' ((sAt_lt hT (hA a ha) (hA a' ha')).1 hlt)
  exact ⟨_, ⟨b, hb, rfl⟩, (sAt_lt hT (hA a ha) (hB b hb)).2 h1, (sAt_lt hT (hB b hb) (hA a' ha')).2 h2⟩

/-- C16: for increasing time stamps the reported maxima are increasing, and so are the minima; between two maxima there is a
minimum and between two minima a maximum; no position is both; their numbers differ by at most one; three extrema contain one of each kind. -/
theorem C16_alternate (T S : List K) (hT : T.Pairwise (· < ·)) (hlen : T.length = S.length) :
    ∃ e, findExtrema .simple T S = .ok e ∧ e.maxPos.Pairwise (· < ·) ∧ e.minPos.Pairwise (· < ·) ∧
      (∀ x ∈ e.maxPos, ∀ y ∈ e.maxPos, x < y → ∃ z ∈ e.minPos, x < z ∧ z < y) ∧
      (∀ x ∈ e.minPos, ∀ y ∈ e.minPos, x < y → ∃ z ∈ e.maxPos, x < z ∧ z < y) ∧
      (∀ x ∈ e.maxPos, x ∉ e.minPos) ∧
      e.maxPos.length ≤ e.minPos.length + 1 ∧ e.minPos.length ≤ e.maxPos.length + 1 ∧
      (3 ≤ e.maxPos.length + e.minPos.length → 1 ≤ e.maxPos.length ∧ 1 ≤ e.minPos.length) := by
  have hA : ∀ i ∈ reported isPos isNeg S, i < T.length := fun i hi => by
    have := reported_lt isPos_zero isNeg_zero hi; omega
  have hB : ∀ i ∈ reported isNeg isPos S, i < T.length := fun i hi => by
    have := reported_lt isNeg_zero isPos_zero hi; omega
  have hsA := (reported_spec isPos isNeg isPos_zero isNeg_zero S).1
  have hsB := (reported_spec isNeg isPos isNeg_zero isPos_zero S).1
  have l1 := length_le_of_between hsA (fun a ha a' ha' => maxima_alternate ha ha')
  have l2 := length_le_of_between hsB (fun a ha a' ha' => minima_alternate ha ha')
  refine ⟨_, findExtremaSimple_eq T S hlen, ?_, ?_, ?_, ?_, ?_, ?_, ?_, ?_⟩
  · rw [List.pairwise_map]
    exact hsA.imp_of_mem (fun ha hb h => (sAt_lt hT (hA _ ha) (hA _ hb)).2 h)
  · rw [List.pairwise_map]
    exact hsB.imp_of_mem (fun ha hb h => (sAt_lt hT (hB _ ha) (hB _ hb)).2 h)
  · exact positions_alternate hT hA hB (fun a ha a' ha' => maxima_alternate ha ha')
  · exact positions_alternate hT hB hA (fun a ha a' ha' => minima_alternate ha ha')
  · simp only [List.mem_map]
    rintro _ ⟨i, hi, rfl⟩ ⟨j, hj, e⟩
    have hij : i = j := by
      rcases Nat.lt_trichotomy i j with h | h | h
      · exact absurd e ((sAt_lt hT (hA i hi) (hB j hj)).2 h).ne'
      · exact h
      · exact absurd e ((sAt_lt hT (hB j hj) (hA i hi)).2 h).ne
    subst hij
    exact maxima_minima_disjoint hi hj
  · simpa using l1
  · simpa using l2
  · simp only [List.length_map]; omega

/-- Four maxima, three minima, with flat pieces. -/
example : okWith (fun e => e.maxPos.length == 4 && e.minPos.length == 4)
    (findExtrema .simple ((List.range 14).map (fun k : Nat => (k : ℚ)))
      ([1, 0, 3, 3, 2, 2, 5, 4, 6, 6, 6, 0, 1, 0] : List ℚ)) = true := by decide +kernel

/-! ## C17 -/

/-- In a strictly increasing list that contains `a` and `a + 1` these are neighbours. -/
theorem one_mem_npDiff {l : List Nat} (hl : l.Pairwise (· < ·)) {a : Nat} (h : a ∈ l) (h' : a + 1 ∈ l) :
    (npDiff (l.map (fun k : Nat => (k : Int)))).any (fun x => x == 1) = true := by
  induction l with
  | nil => cases h
  | cons x l ih =>
    cases l with
    | nil => simp at h h'; omega
    | cons y l =>
      have hp := List.pairwise_cons.1 hl
      have hp' := List.pairwise_cons.1 hp.2
      have hxy := hp.1 y (by simp)
      have e : npDiff ((x :: y :: l).map (fun k : Nat => (k : Int))) =
          ((y : Int) - x) :: npDiff ((y :: l).map (fun k : Nat => (k : Int))) := by simp [npDiff]
      rw [e, List.any_cons, Bool.or_eq_true]
      by_cases ha : a = x
      · subst ha
        left
        have : y = a + 1 := by
          rcases List.mem_cons.1 h' with hh | hh
          · omega
          · rcases List.mem_cons.1 hh with hh | hh
            · omega
            · have := hp'.1 _ hh; omega
        rw [this]
        simp
      · right
        have ha' : a ∈ y :: l := (List.mem_cons.1 h).resolve_left ha
        apply ih hp.2 ha'
        rcases List.mem_cons.1 h' with hh | hh
        · exfalso
          rcases List.mem_cons.1 ha' with hh' | hh'
          · omega
          · have := hp'.1 _ hh'; omega
        · exact hh

/-- Maximal runs of zeros, both ends inclusive. -/
def zeroRuns (S : List K) : List (Nat × Nat) := (runs (S.map (fun s => s == 0))).map (fun p => (p.1, p.2 - 1))

theorem mem_zeroRuns {S : List K} {l r : Nat} : (l, r) ∈ zeroRuns S ↔ IsZeroRun S l r := by
  have hb : ∀ j : Nat, (S.map (fun s => s == 0))[j]?.getD false = true ↔ S[j]? = some (0 : K) := by
    intro j
    rw [List.getElem?_map]
    cases S[j]? <;> simp
  have hb' : ∀ j : Nat, (S.map (fun s => s == 0))[j]?.getD false = false ↔ S[j]? ≠ some (0 : K) := by
    intro j
    rw [← Bool.not_eq_true, hb]
  unfold zeroRuns
  simp only [List.mem_map, Prod.exists, Prod.mk.injEq]
  constructor
  · rintro ⟨s, e, h, rfl, rfl⟩
    obtain ⟨h1, h2, h3, h4⟩ := (mem_runs _ _ _).1 h
    refine ⟨by omega, fun i hi hi' => (hb i).1 (h2 i hi (by omega)), ?_, ?_⟩
    · rcases h3 with h3 | h3
      · exact .inl h3
      · exact .inr ((hb' _).1 h3)
    · rw [show e - 1 + 1 = e by omega]; exact (hb' _).1 h4
  · rintro ⟨h1, h2, h3, h4⟩
    refine ⟨l, r + 1, (mem_runs _ _ _).2 ⟨by omega, fun j hj hj' => (hb j).2 (h2 j hj (by omega)), ?_, (hb' _).2 h4⟩, rfl, by omega⟩
    rcases h3 with h3 | h3
    · exact .inl h3
    · exact .inr ((hb' _).2 h3)

theorem zeroRuns_sorted (S : List K) : (zeroRuns S).Pairwise (fun p q => p.2 < q.1) := by
  unfold zeroRuns
  rw [List.pairwise_map]
  exact (runs_sorted _).imp (fun h => by omega)

theorem zeroRunMids_eq (S : List K) :
    zeroRunMids (S.map (fun s => s == 0)) = (zeroRuns S).map (fun p => roundHalf (p.1 + p.2)) := by
  unfold zeroRunMids zeroRuns
  simp only [runDiff_starts, runDiff_ends, List.map_map]
  rw [List.zipWith_map, List.zipWith_self]
  rfl

theorem zeroMids_sorted (S : List K) : ((zeroRuns S).map (fun p => roundHalf (p.1 + p.2))).Pairwise (· < ·) := by
  rw [List.pairwise_map]
  refine (zeroRuns_sorted S).imp_of_mem ?_
  intro p q hp hq hpq
  have h1 := roundHalf_mem (mem_zeroRuns.1 hp).1
  have h2 := roundHalf_mem (mem_zeroRuns.1 hq).1
  omega

/-- Every zero sample lies in a maximal run. -/
theorem exists_zeroRun {S : List K} {i : Nat} (h : S[i]? = some (0 : K)) : ∃ l r, IsZeroRun S l r ∧ l ≤ i ∧ i ≤ r := by
  have left : ∀ i, S[i]? = some (0 : K) → ∃ l, l ≤ i ∧ (∀ j, l ≤ j → j ≤ i → S[j]? = some (0 : K)) ∧ (l = 0 ∨ S[l - 1]? ≠ some (0 : K)) := by
    intro i
    induction i with
    | zero => exact fun h => ⟨0, le_refl _, fun j _ hj => by rw [show j = 0 by omega]; exact h, .inl rfl⟩
    | succ i ih =>
      intro h
      by_cases hi : S[i]? = some (0 : K)
      · obtain ⟨l, h1, h2, h3⟩ := ih hi
        refine ⟨l, by omega, fun j hj hj' => ?_, h3⟩
        by_cases hji : j = i + 1
        · rw [hji]; exact h
        · exact h2 j hj (by omega)
      · exact ⟨i + 1, le_refl _, fun j hj hj' => by rw [show j = i + 1 by omega]; exact h, .inr hi⟩
  have right : ∀ n i, S.length - i ≤ n → S[i]? = some (0 : K) → ∃ r, i ≤ r ∧ (∀ j, i ≤ j → j ≤ r → S[j]? = some (0 : K)) ∧ S[r + 1]? ≠ some (0 : K) := by
    intro n
    induction n with
    | zero =>
      intro i hi h
      have := (List.getElem?_eq_some_iff.1 h).1
      omega
    | succ n ih =>
      intro i hi h
      by_cases hn : S[i + 1]? = some (0 : K)
      · obtain ⟨r, h1, h2, h3⟩ := ih (i + 1) (by omega) hn
        refine ⟨r, by omega, fun j hj hj' => ?_, h3⟩
        by_cases hji : j = i
        · rw [hji]; exact h
        · exact h2 j (by omega) hj'
      · exact ⟨i, le_refl _, fun j hj hj' => by rw [show j = i by omega]; exact h, hn⟩
  obtain ⟨l, a1, a2, a3⟩ := left i h
  obtain ⟨r, b1, b2, b3⟩ := right S.length i (by omega) h
  refine ⟨l, r, ⟨by omega, fun j hj hj' => ?_, a3, b3⟩, a1, b1⟩
  by_cases hji : j ≤ i
  · exact a2 j hj hji
  · exact b2 j (by omega) hj'

/-- Indices of strict sign changes. -/
def signChanges (S : List K) : List Nat := nonzero (List.zipWith (fun a b => decide (a * b < lit 0)) S.dropLast S.tail)

theorem mem_signChanges {S : List K} {i : Nat} : i ∈ signChanges S ↔ IsSignChange S i := by
  unfold signChanges IsSignChange
  rw [mem_nonzero]
  by_cases hi : i + 1 < S.length
  · have h1 : S.dropLast[i]? = some (sAt S i) := by
      rw [List.getElem?_dropLast, if_pos (by omega), getElem?_sAt (by omega)]
    have h2 : S.tail[i]? = some (sAt S (i + 1)) := by
      rw [List.getElem?_tail, getElem?_sAt (by omega)]
    rw [List.getElem?_zipWith, h1, h2, getElem?_sAt hi, getElem?_sAt (show i < S.length by omega)]
    simp only [Option.some.injEq, lit_zero, decide_eq_true_eq, mul_neg_iff]
    constructor
    · exact fun h => ⟨_, _, rfl, rfl, h.symm⟩
    · rintro ⟨x, y, rfl, rfl, h⟩; exact h.symm
  · rw [List.getElem?_eq_none (by simp; omega), List.getElem?_eq_none (show S.length ≤ i + 1 by omega)]
    simp

theorem zeroCrossings_eq (S : List K) : zeroCrossings S = npSort (signChanges S ++ (zeroRuns S).map (fun p => roundHalf (p.1 + p.2))) ∨
    (zeroCrossings S = signChanges S ∧ zeroRuns S = []) := by
  have hz : (zeroCrossings S) = (if (S.map (fun s => s == (0 : K))).any id then npSort (signChanges S ++
      (if (npDiff ((nonzero (S.map (fun s => s == (0 : K)))).map (fun k : Nat => (k : Int)))).any (fun x => x == 1) then
        zeroRunMids (S.map (fun s => s == (0 : K))) else nonzero (S.map (fun s => s == (0 : K)))))
      else signChanges S) := by
    unfold zeroCrossings signChanges
    simp only [lit_zero]
  have hmem : ∀ i, i ∈ nonzero (S.map (fun s => s == (0 : K))) ↔ S[i]? = some (0 : K) := by
    intro i
    rw [mem_nonzero, List.getElem?_map]
    cases S[i]? <;> simp
  rw [hz]
  by_cases hany : (S.map (fun s => s == (0 : K))).any id = true
  · left
    rw [if_pos hany]
    congr 2
    by_cases hadj : (npDiff ((nonzero (S.map (fun s => s == (0 : K)))).map (fun k : Nat => (k : Int)))).any (fun x => x == 1) = true
    · rw [if_pos hadj, zeroRunMids_eq]
    · rw [if_neg hadj]
      have hno : ∀ i, S[i]? = some (0 : K) → S[i + 1]? ≠ some (0 : K) := fun i h1 h2 =>
        hadj (one_mem_npDiff (nonzero_sorted _) ((hmem i).2 h1) ((hmem (i + 1)).2 h2))
      have hone : ∀ l r, IsZeroRun S l r → r = l := by
        rintro l r ⟨h1, h2, -⟩
        by_contra hc
        exact hno l (h2 l (le_refl _) h1) (h2 (l + 1) (by omega) (by omega))
      apply sorted_ext (nonzero_sorted _) (zeroMids_sorted S)
      intro i
      have hself : ∀ i, roundHalf (i + i) = i := by
        intro i; unfold roundHalf; rw [if_pos (by omega)]; omega
      rw [hmem, List.mem_map]
      constructor
      · intro h
        obtain ⟨l, r, hr, h1, h2⟩ := exists_zeroRun h
        have := hone l r hr
        subst this
        have : r = i := by omega
        subst this
        exact ⟨(r, r), mem_zeroRuns.2 hr, hself r⟩
      · rintro ⟨⟨l, r⟩, h, rfl⟩
        have hr := mem_zeroRuns.1 h
        have := hone l r hr
        subst this
        simp only [hself]
        exact hr.2.1 r (le_refl _) (le_refl _)
  · right
    rw [if_neg hany]
    refine ⟨rfl, ?_⟩
    rw [List.eq_nil_iff_forall_not_mem]
    rintro ⟨l, r⟩ h
    have h0 := (mem_zeroRuns.1 h).2.1 l (le_refl _) (mem_zeroRuns.1 h).1
    apply hany
    rw [List.any_map, List.any_eq_true]
    exact ⟨0, List.mem_of_getElem? h0, by simp⟩

/-- C17: the zero-crossing list contains one entry per sign change between neighbouring samples (its left index) and one
per maximal run of zeros (its middle), nothing else; it is strictly increasing, so nothing is counted twice.  Both
detection modes. -/
theorem C17_zero_crossings (det : Detection) (T S : List K) (e : Extrema K) (h : findExtrema det T S = .ok e) :
    ∃ C Z : List Nat, ∃ R : List (Nat × Nat),
      C.Pairwise (· < ·) ∧ (∀ i, i ∈ C ↔ IsSignChange S i) ∧
      R.Pairwise (fun p q => p.2 < q.1) ∧ (∀ l r, (l, r) ∈ R ↔ IsZeroRun S l r) ∧
      List.Forall₂ (fun p m => IsMiddle p.1 p.2 m) R Z ∧
      e.indzer.Perm (C ++ Z) ∧ e.indzer.length = C.length + R.length ∧ e.indzer.Pairwise (· < ·) := by
  have hind : e.indzer = zeroCrossings S := by
    cases det with
    | simple =>
      simp only [findExtrema, findExtremaSimple, bind_eq_ok, pure_eq_ok] at h
      obtain ⟨_, -, _, -, _, -, _, -, _, -, rfl⟩ := h
      rfl
    | parabol =>
      simp only [findExtrema, findExtremaParabol, bind_eq_ok, pure_eq_ok] at h
      obtain ⟨_, -, _, -, _, -, _, -, rfl⟩ := h
      rfl
    | unknown => cases h
  have hC : (signChanges S).Pairwise (· < ·) := nonzero_sorted _
  have hZ := zeroMids_sorted S
  have hdis : ∀ a ∈ signChanges S, a ∉ (zeroRuns S).map (fun p => roundHalf (p.1 + p.2)) := by
    intro a ha hb
    obtain ⟨x, y, hx, -, hxy⟩ := mem_signChanges.1 ha
    obtain ⟨⟨l, r⟩, hr, rfl⟩ := List.mem_map.1 hb
    have hr := mem_zeroRuns.1 hr
    have hm := roundHalf_mem hr.1
    have h0 := hr.2.1 _ hm.1 hm.2
    simp only at hx
    rw [h0, Option.some.injEq] at hx
    subst hx
    rcases hxy with h | h <;> exact absurd h.1 (lt_irrefl _)
  have hperm : e.indzer.Perm (signChanges S ++ (zeroRuns S).map (fun p => roundHalf (p.1 + p.2))) ∧ e.indzer.Pairwise (· < ·) := by
    rw [hind]
    rcases zeroCrossings_eq S with h | ⟨h, h'⟩
    · rw [h]; exact ⟨npSort_perm _, npSort_strict hC hZ hdis⟩
    · rw [h, h']; exact ⟨by simp, hC⟩
  refine ⟨signChanges S, _, zeroRuns S, hC, fun i => mem_signChanges, zeroRuns_sorted S, fun l r => mem_zeroRuns, ?_, hperm.1, ?_, hperm.2⟩
  · rw [List.forall₂_map_right_iff]
    exact List.forall₂_same.2 (fun p _ => isMiddle_roundHalf _ _)
  · rw [hperm.1.length_eq]; simp

/-- Sign changes, an isolated zero and a run of zeros. -/
example : okWith (fun e : Extrema ℚ => e.indzer == [0, 2, 6])
    (findExtrema .simple [0, 1, 2, 3, 4, 5, 6, 7, 8] [1, -1, 0, -1, -2, 0, 0, 0, 1]) = true := by decide +kernel

/-! ## C18 -/

theorem dAt_affine (c b : K) (S : List K) (i : Nat) : dAt (S.map (fun x => c * x + b)) i = c * dAt S i := by
  unfold dAt
  rw [npDiff_map_affine]
  by_cases h : i < (npDiff S).length
  · rw [getD_lt _ _ _ (by simpa using h), getD_lt _ _ _ h, List.getElem_map]
  · simp only [List.getD]
    rw [List.getElem?_eq_none (by simpa using h), List.getElem?_eq_none (by simpa using h)]
    simp

theorem reported_congr {P Q P' Q' : K → Bool} (hP : P 0 = false) (hQ : Q 0 = false) (hP' : P' 0 = false) (hQ' : Q' 0 = false)
    (c b : K) (hc : c ≠ 0) (S : List K) (h1 : ∀ x, P' (c * x) = P x) (h2 : ∀ x, Q' (c * x) = Q x) :
    reported P' Q' (S.map (fun x => c * x + b)) = reported P Q S := by
  apply sorted_ext (reported_spec P' Q' hP' hQ' _).1 (reported_spec P Q hP hQ S).1
  intro m
  rw [mem_reported hP' hQ', mem_reported hP hQ]
  have e1 : ∀ l r, Peak P' Q' (S.map (fun x => c * x + b)) l r ↔ Peak P Q S l r := by
    intro l r
    constructor
    · rintro ⟨a1, a2, a3, a4, a5, a6⟩
      rw [dAt_affine] at a4 a6
      simp only [dAt_affine, mul_eq_zero, hc, false_or] at a5
      exact ⟨a1, a2, by simpa using a3, by rw [← h1]; exact a4, a5, by rw [← h2]; exact a6⟩
    · rintro ⟨a1, a2, a3, a4, a5, a6⟩
      refine ⟨a1, a2, by simpa using a3, by rw [dAt_affine, h1]; exact a4, fun j hj hj' => ?_, by rw [dAt_affine, h2]; exact a6⟩
      rw [dAt_affine, a5 j hj hj', mul_zero]
  have e2 : ∀ r, Start P' Q' (S.map (fun x => c * x + b)) r ↔ Start P Q S r := by
    intro r
    constructor
    · rintro ⟨a1, a3, a5, a6, a4⟩
      rw [dAt_affine] at a4 a6
      simp only [dAt_affine, mul_eq_zero, hc, false_or] at a5
      rw [List.length_map] at a4
      exact ⟨a1, by simpa using a3, a5, by rw [← h2]; exact a6, by rw [← h1]; exact a4⟩
    · rintro ⟨a1, a3, a5, a6, a4⟩
      refine ⟨a1, by simpa using a3, fun j hj => ?_, by rw [dAt_affine, h2]; exact a6, by rw [dAt_affine, h1, List.length_map]; exact a4⟩
      rw [dAt_affine, a5 j hj, mul_zero]
  simp only [e1, e2]

theorem reported_pos_affine (c b : K) (hc : 0 < c) (S : List K) :
    reported isPos isNeg (S.map (fun x => c * x + b)) = reported isPos isNeg S ∧
    reported isNeg isPos (S.map (fun x => c * x + b)) = reported isNeg isPos S := by
  have h1 : ∀ x, isPos (c * x) = isPos x := fun x => by
    simp only [isPos, mul_pos_iff_of_pos_left hc]
  have h2 : ∀ x, isNeg (c * x) = isNeg x := fun x => by
    simp only [isNeg, mul_neg_iff, hc, not_lt.2 hc.le, false_and, or_false, true_and]
  exact ⟨reported_congr isPos_zero isNeg_zero isPos_zero isNeg_zero c b hc.ne' S h1 h2,
    reported_congr isNeg_zero isPos_zero isNeg_zero isPos_zero c b hc.ne' S h2 h1⟩

theorem reported_neg (S : List K) :
    reported isPos isNeg (S.map (fun x => -x)) = reported isNeg isPos S ∧
    reported isNeg isPos (S.map (fun x => -x)) = reported isPos isNeg S := by
  have e : S.map (fun x => -x) = S.map (fun x => (-1) * x + 0) := by
    apply List.map_congr_left; intro x _; ring
  have h1 : ∀ x : K, isPos ((-1) * x) = isNeg x := fun x => by simp [isPos, isNeg]
  have h2 : ∀ x : K, isNeg ((-1) * x) = isPos x := fun x => by simp [isPos, isNeg]
  rw [e]
  exact ⟨reported_congr isNeg_zero isPos_zero isPos_zero isNeg_zero (-1) 0 (by norm_num) S h1 h2,
    reported_congr isPos_zero isNeg_zero isNeg_zero isPos_zero (-1) 0 (by norm_num) S h2 h1⟩

/-- C18: an increasing affine map of the samples keeps the reported positions and transforms the reported values. -/
theorem C18_affine (T S : List K) (hT : T.length = S.length) (c b : K) (hc : 0 < c) :
    ∃ e e', findExtrema .simple T S = .ok e ∧ findExtrema .simple T (S.map (fun x => c * x + b)) = .ok e' ∧
      e'.maxPos = e.maxPos ∧ e'.minPos = e.minPos ∧ e'.maxVal = e.maxVal.map (fun x => c * x + b) ∧
      e'.minVal = e.minVal.map (fun x => c * x + b) := by
  obtain ⟨h1, h2⟩ := reported_pos_affine c b hc S
  refine ⟨_, _, findExtremaSimple_eq T S hT, findExtremaSimple_eq T _ (by simpa using hT), ?_⟩
  simp only [h1, h2, true_and]
  exact ⟨map_sAt_map _ S _ (fun _ => maxima_lt), map_sAt_map _ S _ (fun _ => minima_lt)⟩

theorem zeroCrossings_neg (S : List K) : zeroCrossings (S.map (fun x => -x)) = zeroCrossings S := by
  have e1 : List.zipWith (fun a b => decide (a * b < lit 0)) (S.map (fun x => -x)).dropLast (S.map (fun x => -x)).tail =
      List.zipWith (fun a b => decide (a * b < lit 0)) S.dropLast S.tail := by
    rw [← List.map_dropLast, ← List.map_tail, List.zipWith_map]
    simp only [neg_mul_neg]
  have e2 : (S.map (fun x => -x)).map (fun s => s == lit 0) = S.map (fun s => s == lit 0) := by
    rw [List.map_map]
    apply List.map_congr_left
    intro x _
    rw [Function.comp, lit_zero, Bool.eq_iff_iff]
    simp only [beq_iff_eq, neg_eq_zero]
  unfold zeroCrossings
  simp only [e1, e2]

/-- C18: negation swaps maxima and minima, negates the values, and keeps the zero crossings. -/
theorem C18_neg (T S : List K) (hT : T.length = S.length) :
    ∃ e e', findExtrema .simple T S = .ok e ∧ findExtrema .simple T (S.map (fun x => -x)) = .ok e' ∧
      e'.maxPos = e.minPos ∧ e'.minPos = e.maxPos ∧ e'.maxVal = e.minVal.map (fun x => -x) ∧
      e'.minVal = e.maxVal.map (fun x => -x) ∧ e'.indzer = e.indzer := by
  obtain ⟨h1, h2⟩ := reported_neg S
  refine ⟨_, _, findExtremaSimple_eq T S hT, findExtremaSimple_eq T _ (by simpa using hT), ?_⟩
  simp only [h1, h2, true_and, zeroCrossings_neg, and_true]
  exact ⟨map_sAt_map _ S _ (fun _ => minima_lt), map_sAt_map _ S _ (fun _ => maxima_lt)⟩

/-- The instances are not trivial: there are extrema. -/
example : okWith (fun e : Extrema ℚ => e.maxPos == [1, 3, 5, 7] && e.minPos == [2, 4, 6, 8])
    (findExtrema .simple ((List.range 10).map (fun k : Nat => (k : ℚ))) sampleS) = true := by decide +kernel

/-! ## C20 -/

/-- C20, simple mode: no extrema are reported for a monotone signal. -/
theorem C20_monotone_simple (T S : List K) (hT : T.length = S.length) (hm : S.Pairwise (· ≤ ·) ∨ S.Pairwise (· ≥ ·)) :
    ∃ e, findExtrema .simple T S = .ok e ∧ e.maxPos = [] ∧ e.maxVal = [] ∧ e.minPos = [] ∧ e.minVal = [] := by
  have mono : ∀ i j : Nat, i < j → ∀ x y : K, S[i]? = some x → S[j]? = some y → (S.Pairwise (· ≤ ·) → x ≤ y) ∧ (S.Pairwise (· ≥ ·) → y ≤ x) := by
    intro i j hij x y hx hy
    obtain ⟨hi, rfl⟩ := List.getElem?_eq_some_iff.1 hx
    obtain ⟨hj, rfl⟩ := List.getElem?_eq_some_iff.1 hy
    exact ⟨fun h => List.pairwise_iff_getElem.1 h i j hi hj hij, fun h => List.pairwise_iff_getElem.1 h i j hi hj hij⟩
  have hmax : reported isPos isNeg S = [] := by
    rw [List.eq_nil_iff_forall_not_mem]
    intro m h
    rcases mem_maxima.1 h with ⟨l, r, ⟨h1, h2, v, a, b, hf, ha, hb, hav, hbv⟩, -⟩ | ⟨r, ⟨h1, ⟨v, b, hf, hb, hbv⟩, y, z, hy, hz, hyz⟩, -⟩
    · rcases hm with hm | hm
      · exact absurd ((mono r (r + 1) (by omega) v b (hf r h2 (le_refl _)) hb).1 hm) (not_le.2 hbv)
      · exact absurd ((mono (l - 1) l (by omega) a v ha (hf l (le_refl _) h2)).2 hm) (not_le.2 hav)
    · have hl := (List.getElem?_eq_some_iff.1 hb).1
      rcases hm with hm | hm
      · exact absurd ((mono r (r + 1) (by omega) v b (hf r (le_refl _)) hb).1 hm) (not_le.2 hbv)
      · exact absurd ((mono (S.length - 2) (S.length - 1) (by omega) y z hy hz).2 hm) (not_le.2 hyz)
  have hmin : reported isNeg isPos S = [] := by
    rw [List.eq_nil_iff_forall_not_mem]
    intro m h
    rcases mem_minima.1 h with ⟨l, r, ⟨h1, h2, v, a, b, hf, ha, hb, hav, hbv⟩, -⟩ | ⟨r, ⟨h1, ⟨v, b, hf, hb, hbv⟩, y, z, hy, hz, hyz⟩, -⟩
    · rcases hm with hm | hm
      · exact absurd ((mono (l - 1) l (by omega) a v ha (hf l (le_refl _) h2)).1 hm) (not_le.2 hav)
      · exact absurd ((mono r (r + 1) (by omega) v b (hf r h2 (le_refl _)) hb).2 hm) (not_le.2 hbv)
    · have hl := (List.getElem?_eq_some_iff.1 hb).1
      rcases hm with hm | hm
      · exact absurd ((mono (S.length - 2) (S.length - 1) (by omega) y z hy hz).1 hm) (not_le.2 hyz)
      · exact absurd ((mono r (r + 1) (by omega) v b (hf r (le_refl _)) hb).2 hm) (not_le.2 hbv)
  refine ⟨_, findExtremaSimple_eq T S hT, ?_⟩
  simp [hmax, hmin]

theorem timeline_ok (n : Nat) (h : n ≠ 0) : (timeline n : PyM (List K)) = .ok ((List.range n).map (fun k : Nat => (k : K))) := by
  unfold timeline
  rw [if_neg h]
  simp only [lit_nat]

theorem timeline_diff (n : Nat) : npDiff ((List.range n).map (fun k : Nat => (k : K))) = List.replicate (n - 1) 1 := by
  apply List.ext_getElem
  · simp [npDiff_length]
  · intro i h1 h2
    rw [npDiff_getElem]
    simp

/-- In simple mode the decomposition runs on `0, 1, ..., n-1` for every signal with two or more samples. -/
theorem prepareTime_simple (cfg : Cfg K) (hd : cfg.detection = .simple) (S : List K) (hS : 2 ≤ S.length)
    (T : Option (List K)) (hT : ∀ T', T = some T' → T'.length = S.length) :
    prepareTime cfg S T = .ok ((List.range S.length).map (fun k : Nat => (k : K))) := by
  have key : normalizeTime ((List.range S.length).map (fun k : Nat => (k : K))) =
      .ok ((List.range S.length).map (fun k : Nat => (k : K))) := by
    have hmin : npMin (npDiff ((List.range S.length).map (fun k : Nat => (k : K)))) = 1 := by
      rw [timeline_diff]
      have hne : List.replicate (S.length - 1) (1 : K) ≠ [] := by
        rw [← List.length_pos_iff, List.length_replicate]; omega
      exact List.eq_of_mem_replicate (npMin_spec hne).1
    rw [normalizeTime_ok _ (by simpa using hS), hmin]
    · congr 1
      rw [List.map_map]
      apply List.map_congr_left
      intro i _
      simp
    · rw [timeline_diff]
      intro x hx
      rw [List.eq_of_mem_replicate hx]
      exact one_ne_zero
  unfold prepareTime
  rw [timeline_ok _ (by omega)]
  cases T with
  | none => exact key
  | some T' =>
    simp only [hT T' rfl, ne_eq, not_true_eq_false, if_false, hd, if_true]
    exact key

/-- C20, the decomposition in simple mode: a monotone signal is returned unchanged as the residue, there is no IMF. -/
theorem C20_monotone_emd (fuel : Nat) (sp : SciPy K) (o : Obj K) (S : List K) (T : Option (List K)) (mi : Int)
    (hd : o.cfg.detection = .simple) (hM : 2 ≤ o.cfg.MAX_ITERATION) (hfuel : 1 ≤ fuel) (hS : 2 ≤ S.length)
    (hT : ∀ T', T = some T' → T'.length = S.length) (hm : S.Pairwise (· ≤ ·) ∨ S.Pairwise (· ≥ ·)) :
    ∃ rows o', o.emd fuel sp S T mi = (.ok rows, o') ∧ o'.getImfsAndResidue = .ok ([], S) ∧
      ((Vanishes S ∧ rows = []) ∨ (¬ Vanishes S ∧ rows = [S])) := by
  have hpt := prepareTime_simple o.cfg hd S hS T hT
  refine C11_few_extrema (fun x => by rw [lit_zero, sub_zero]) fuel sp o S T _ mi hfuel hM hpt ?_
  obtain ⟨e, he, h1, -, h2, -⟩ := C20_monotone_simple ((List.range S.length).map (fun k : Nat => (k : K))) S (by simp) hm
  exact ⟨e, by rw [hd]; exact he, by simp [h1, h2]⟩

/-- A rising staircase. -/
example : okWith (fun r => r.rows == [[0, 1, 1, 2, 3, 3, 4, 5, 5, 6]])
    (emdPure 5 linSciPy (Cfg.default : Cfg ℚ) [0, 1, 1, 2, 3, 3, 4, 5, 5, 6] none (-1)) = true := by decide +kernel

/-- C20 fails in parabolic mode: three minima are reported for a rising staircase, and `emd` raises `IndexError`. -/
theorem C20_counterexample :
    ([0, 1, 1, 2, 3, 3, 4, 5, 5, 6] : List ℚ).Pairwise (· ≤ ·) ∧
    okWith (fun e => e.minPos.length == 3 && e.maxPos.length == 0)
      (findExtrema .parabol [0, 1, 2, 3, 4, 5, 6, 7, 8, 9] ([0, 1, 1, 2, 3, 3, 4, 5, 5, 6] : List ℚ)) = true ∧
    errIs .indexError (emdPure 5 linSciPy { (Cfg.default : Cfg ℚ) with detection := .parabol }
      [0, 1, 1, 2, 3, 3, 4, 5, 5, 6] none (-1)) = true := by decide +kernel

end EMD
end PyEMD
