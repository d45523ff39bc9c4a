import Verif.Lemmas.Runs
import Verif.Lemmas.Exact
import Verif.Spec.Extrema
import Mathlib.Data.List.Perm.Basic

/-!
# What simple extremum detection computes
-/

set_option linter.unusedSectionVars false

namespace PyEMD

theorem isMiddle_roundHalf (l r : Nat) : EMD.Spec.IsMiddle l r (roundHalf (l + r)) := by
  unfold EMD.Spec.IsMiddle roundHalf
  split
  · left; omega
  · split
    · right; omega
    · right; omega

theorem isMiddle_iff (l r m : Nat) : EMD.Spec.IsMiddle l r m ↔ m = roundHalf (l + r) := by
  unfold EMD.Spec.IsMiddle roundHalf
  constructor
  · intro h
    split
    · omega
    · split <;> omega
  · rintro rfl; exact isMiddle_roundHalf l r

theorem roundHalf_mem {l r : Nat} (h : l ≤ r) : l ≤ roundHalf (l + r) ∧ roundHalf (l + r) ≤ r := by
  unfold roundHalf
  split
  · omega
  · split <;> omega

theorem getD_lt {β : Type} (l : List β) (i : Nat) (x : β) (h : i < l.length) : l.getD i x = l[i] := by
  simp [List.getD, h]

theorem pyTake_map {β γ : Type} (l : List β) (idx : List γ) (f : γ → Int) (g : γ → β)
    (h : ∀ i ∈ idx, pyGet l (f i) = .ok (g i)) : pyTake l (idx.map f) = .ok (idx.map g) := by
  induction idx with
  | nil => rfl
  | cons i idx ih =>
    have h1 := h i (by simp)
    have h2 := ih (fun j hj => h j (by simp [hj]))
    simp only [List.map_cons, pyTake, h1, h2, bind, Except.bind, pure, Except.pure]

theorem maskSel_map {β γ : Type} (l : List γ) (f : γ → β) (g : γ → Bool) :
    maskSel (l.map f) (l.map g) = (l.filter g).map f := by
  induction l with
  | nil => rfl
  | cons a l ih =>
    simp only [List.map_cons, maskSel, ih]
    cases h : g a <;> simp [h]

theorem npSort_perm (l : List Nat) : (npSort l).Perm l := List.perm_insertionSort _ l

theorem npSort_sorted (l : List Nat) : (npSort l).Pairwise (· ≤ ·) := List.pairwise_insertionSort _ l

theorem npSort_strict {A B : List Nat} (hA : A.Pairwise (· < ·)) (hB : B.Pairwise (· < ·)) (hd : ∀ a ∈ A, a ∉ B) :
    (npSort (A ++ B)).Pairwise (· < ·) := by
  have hn : (npSort (A ++ B)).Nodup := by
    rw [(npSort_perm _).nodup_iff, List.nodup_append]
    refine ⟨hA.imp (fun h => by omega), hB.imp (fun h => by omega), ?_⟩
    intro a ha b hb e
    subst e
    exact hd a ha hb
  have := (npSort_sorted (A ++ B)).and hn
  exact this.imp (fun h => by omega)

/-- Appending the second list when it is not empty, and sorting. -/
theorem merge_spec (A B : List Nat) (c : Bool) (hc : c = false → B = []) (hA : A.Pairwise (· < ·))
    (hB : B.Pairwise (· < ·)) (hd : ∀ a ∈ A, a ∉ B) :
    (if c then npSort (A ++ B) else A).Pairwise (· < ·) ∧
      ∀ m, m ∈ (if c then npSort (A ++ B) else A) ↔ m ∈ A ∨ m ∈ B := by
  cases c with
  | true =>
    simp only [if_true]
    exact ⟨npSort_strict hA hB hd, fun m => by rw [(npSort_perm _).mem_iff, List.mem_append]⟩
  | false =>
    simp only [Bool.false_eq_true, if_false, hc rfl, List.not_mem_nil, or_false]
    exact ⟨hA, fun _ => trivial⟩

namespace EMD

/-! ### Dropping the first and last run -/

theorem dropFirstRun_eq (R : List (Nat × Nat)) (hR : R.Pairwise (fun p q => p.2 < q.1)) (hlt : ∀ p ∈ R, p.1 < p.2) :
    dropFirstRun (R.map (·.1), R.map (·.2)) =
      ((R.filter (fun p => p.1 != 1)).map (·.1), (R.filter (fun p => p.1 != 1)).map (·.2)) := by
  cases R with
  | nil => rfl
  | cons p R =>
    obtain ⟨s, e⟩ := p
    rw [List.pairwise_cons] at hR
    have hse := hlt (s, e) (by simp)
    have hrest : R.filter (fun p => p.1 != 1) = R := by
      rw [List.filter_eq_self]
      intro q hq
      have h1 := hR.1 q hq
      simp only [bne_iff_ne, ne_eq]
      simp only at h1 hse
      omega
    by_cases hs : s = 1
    · subst hs
      simp only [dropFirstRun, List.map_cons, List.length_cons, List.length_map, List.tail_cons]
      rw [List.filter_cons_of_neg (by simp), hrest]
      split
      · rfl
      next h =>
        have : R = [] := List.eq_nil_of_length_eq_zero (by omega)
        subst this; rfl
    · rw [List.filter_cons_of_pos (by simpa using hs), hrest]
      unfold dropFirstRun
      simp only [List.map_cons]
      split
      next h => 
        rw [List.cons.injEq] at h
        exact absurd h.1 hs
      next => rfl

theorem dropLastRun_eq (n : Nat) (R : List (Nat × Nat)) (hR : R.Pairwise (fun p q => p.2 < q.1))
    (hlt : ∀ p ∈ R, p.1 < p.2) (hn : ∀ p ∈ R, p.2 ≤ n - 1) :
    dropLastRun n (R.map (·.1), R.map (·.2)) =
      ((R.filter (fun p => p.2 != n - 1)).map (·.1), (R.filter (fun p => p.2 != n - 1)).map (·.2)) := by
  rcases List.eq_nil_or_concat R with rfl | ⟨R', p, rfl⟩
  · rfl
  · rw [List.concat_eq_append] at *
    rw [List.pairwise_append] at hR
    have hrest : R'.filter (fun p => p.2 != n - 1) = R' := by
      rw [List.filter_eq_self]
      intro q hq
      have h1 := hR.2.2 q hq p (by simp)
      have h2 := hlt p (by simp)
      have h3 := hn p (by simp)
      simp only [bne_iff_ne, ne_eq]
      omega
    unfold dropLastRun
    simp only [List.map_append, List.map_cons, List.map_nil, List.getLast?_append, List.getLast?_singleton,
      Option.some_or, Option.some.injEq, List.length_append, List.length_map, List.length_cons, List.length_nil,
      List.filter_append, hrest, List.dropLast_concat]
    by_cases hp : p.2 = n - 1
    · rw [if_pos ⟨by omega, hp⟩, List.filter_cons_of_neg (by simpa using hp)]
      split
      · simp
      next h =>
        have : R' = [] := List.eq_nil_of_length_eq_zero (by omega)
        subst this; rfl
    · rw [if_neg (by rintro ⟨-, h⟩; exact hp h), List.filter_cons_of_pos (by simpa using hp)]
      simp

variable {K : Type} [Field K] [LinearOrder K] [IsStrictOrderedRing K] [FloorRing K]

/-- Difference `S[i+1] - S[i]` as a total function. -/
def dAt (S : List K) (i : Nat) : K := (npDiff S).getD i 0

/-- Samples as a total function. -/
def sAt (S : List K) (i : Nat) : K := S.getD i 0

theorem dAt_eq {S : List K} {i : Nat} (h : i + 1 < S.length) : dAt S i = sAt S (i + 1) - sAt S i := by
  have h' : i < (npDiff S).length := by rw [npDiff_length]; omega
  simp only [dAt, sAt]
  rw [getD_lt _ _ _ h', npDiff_getElem, getD_lt _ _ _ h, getD_lt _ _ _ (by omega)]

theorem getElem?_sAt {S : List K} {i : Nat} (h : i < S.length) : S[i]? = some (sAt S i) := by
  rw [List.getElem?_eq_getElem h, sAt, getD_lt _ _ _ h]

theorem getElem?_dAt {S : List K} {i : Nat} (h : i + 1 < S.length) : (npDiff S)[i]? = some (dAt S i) := by
  have h' : i < (npDiff S).length := by rw [npDiff_length]; omega
  rw [List.getElem?_eq_getElem h', dAt, getD_lt _ _ _ h']

/-- Flat runs of `S`: maximal `[s, e)` with zero differences. -/
def flat (S : List K) : List (Nat × Nat) := runs ((npDiff S).map (fun x => x == 0))

theorem mem_flat {S : List K} {s e : Nat} : (s, e) ∈ flat S ↔
    s < e ∧ e < S.length ∧ (∀ j, s ≤ j → j < e → dAt S j = 0) ∧ (s = 0 ∨ dAt S (s - 1) ≠ 0) ∧
      (e + 1 = S.length ∨ dAt S e ≠ 0) := by
  rw [flat, mem_runs]
  have hb : ∀ j, j + 1 < S.length → (((npDiff S).map (fun x => x == 0))[j]?.getD false = true ↔ dAt S j = 0) := by
    intro j hj
    rw [List.getElem?_map, getElem?_dAt hj]
    simp
  have hb' : ∀ j, ¬ j + 1 < S.length → ((npDiff S).map (fun x => x == 0))[j]?.getD false = false := by
    intro j hj
    rw [List.getElem?_eq_none]
    · rfl
    · rw [List.length_map, npDiff_length]; omega
  constructor
  · rintro ⟨h1, h2, h3, h4⟩
    have he : e < S.length := by
      by_contra hc
      have := h2 (e - 1) (by omega) (by omega)
      rw [hb' (e - 1) (by omega)] at this
      cases this
    refine ⟨h1, he, fun j hj hj' => (hb j (by omega)).1 (h2 j hj hj'), ?_, ?_⟩
    · rcases h3 with h3 | h3
      · exact .inl h3
      · right
        intro h0
        rw [(hb (s - 1) (by omega)).2 h0] at h3; cases h3
    · by_cases hl : e + 1 = S.length
      · exact .inl hl
      · right
        intro h0
        rw [(hb e (by omega)).2 h0] at h4; cases h4
  · rintro ⟨h1, he, h2, h3, h4⟩
    refine ⟨h1, fun j hj hj' => (hb j (by omega)).2 (h2 j hj hj'), ?_, ?_⟩
    · rcases h3 with h3 | h3
      · exact .inl h3
      · by_cases h0 : s = 0
        · exact .inl h0
        · right
          rw [Bool.eq_false_iff]
          exact fun hc => h3 ((hb (s - 1) (by omega)).1 hc)
    · rcases h4 with h4 | h4
      · exact hb' e (by omega)
      · by_cases hl : e + 1 < S.length
        · rw [Bool.eq_false_iff]
          exact fun hc => h4 ((hb e hl).1 hc)
        · exact hb' e hl

/-- The flat runs considered by the detection. -/
def usedRuns (S : List K) : List (Nat × Nat) :=
  ((flat S).filter (fun p => p.1 != 1)).filter (fun p => p.2 != S.length - 1)

theorem usedRuns_eq (S : List K) : dropLastRun S.length (dropFirstRun (flatRuns (npDiff S))) =
    ((usedRuns S).map (·.1), (usedRuns S).map (·.2)) := by
  have h0 : flatRuns (npDiff S) = ((flat S).map (·.1), (flat S).map (·.2)) := by
    unfold flatRuns flat
    simp only [runDiff_starts, runDiff_ends, lit_zero]
  have hlt : ∀ p ∈ flat S, p.1 < p.2 := fun p hp => (mem_flat.1 hp).1
  have hn : ∀ p ∈ flat S, p.2 ≤ S.length - 1 := fun p hp => by have := (mem_flat.1 hp).2.1; omega
  have hs : (flat S).Pairwise (fun p q => p.2 < q.1) := runs_sorted _
  rw [h0, dropFirstRun_eq _ hs hlt, dropLastRun_eq]
  · rfl
  · exact hs.filter _
  · exact fun p hp => hlt p (List.mem_of_mem_filter hp)
  · exact fun p hp => hn p (List.mem_of_mem_filter hp)

theorem mem_usedRuns {S : List K} {s e : Nat} : (s, e) ∈ usedRuns S ↔
    s < e ∧ e + 1 < S.length ∧ (∀ j, s ≤ j → j < e → dAt S j = 0) ∧ (s = 0 ∨ dAt S (s - 1) ≠ 0) ∧
      dAt S e ≠ 0 ∧ s ≠ 1 := by
  unfold usedRuns
  rw [List.mem_filter, List.mem_filter, mem_flat]
  simp only [bne_iff_ne, ne_eq]
  constructor
  · rintro ⟨⟨⟨h1, h2, h3, h4, h5⟩, h6⟩, h7⟩
    refine ⟨h1, by omega, h3, h4, ?_, h6⟩
    rcases h5 with h5 | h5
    · omega
    · exact h5
  · rintro ⟨h1, h2, h3, h4, h5, h6⟩
    exact ⟨⟨⟨h1, by omega, h3, h4, .inr h5⟩, h6⟩, by omega⟩

/-- The difference before a run, as Python's indexing reads it. -/
def dBefore (S : List K) (s : Nat) : K := if s = 0 then dAt S (S.length - 2) else dAt S (s - 1)

theorem pyGet_dBefore {S : List K} {s e : Nat} (h : (s, e) ∈ usedRuns S) :
    pyGet (npDiff S) ((s : Int) - 1) = .ok (dBefore S s) := by
  obtain ⟨h1, h2, -⟩ := mem_usedRuns.1 h
  unfold dBefore pyGet
  rw [npDiff_length]
  by_cases h0 : s = 0
  · subst h0
    have : pyIdx (S.length - 1) (((0 : Nat) : Int) - 1) = some (S.length - 2) := by
      unfold pyIdx
      rw [if_neg (by omega), if_pos (by omega)]
      congr 1; omega
    simp only [this, getElem?_dAt (show S.length - 2 + 1 < S.length by omega), if_true]
  · have : pyIdx (S.length - 1) ((s : Int) - 1) = some (s - 1) := by
      unfold pyIdx
      rw [if_pos (by omega), if_pos (by omega)]
      congr 1; omega
    simp only [this, getElem?_dAt (show s - 1 + 1 < S.length by omega), if_neg h0]

theorem pyGet_dAfter {S : List K} {s e : Nat} (h : (s, e) ∈ usedRuns S) :
    pyGet (npDiff S) (e : Int) = .ok (dAt S e) := by
  obtain ⟨h1, h2, -⟩ := mem_usedRuns.1 h
  have h' : e < (npDiff S).length := by rw [npDiff_length]; omega
  rw [pyGet_nat _ _ h', dAt, getD_lt _ _ _ h']

/-- Sample indices where the sign of the difference jumps from `P` to `Q`. -/
def jumps (P Q : K → Bool) (S : List K) : List Nat :=
  (nonzero (List.zipWith (fun a b => P a && Q b) (npDiff S).dropLast (npDiff S).tail)).map (· + 1)

/-- Middles of the considered flat runs entered with `P` and left with `Q`. -/
def flats (P Q : K → Bool) (S : List K) : List Nat :=
  ((usedRuns S).filter (fun p => P (dBefore S p.1) && Q (dAt S p.2))).map (fun p => roundHalf (p.2 + p.1))

theorem mem_jumps {P Q : K → Bool} {S : List K} {m : Nat} : m ∈ jumps P Q S ↔
    1 ≤ m ∧ m + 1 < S.length ∧ P (dAt S (m - 1)) = true ∧ Q (dAt S m) = true := by
  unfold jumps
  rw [List.mem_map]
  have key : ∀ i, i ∈ nonzero (List.zipWith (fun a b => P a && Q b) (npDiff S).dropLast (npDiff S).tail) ↔
      i + 2 < S.length ∧ P (dAt S i) = true ∧ Q (dAt S (i + 1)) = true := by
    intro i
    rw [mem_nonzero]
    by_cases hi : i + 2 < S.length
    · have h1 : (npDiff S).dropLast[i]? = some (dAt S i) := by
        rw [List.getElem?_dropLast, if_pos (by rw [npDiff_length]; omega), getElem?_dAt (by omega)]
      have h2 : (npDiff S).tail[i]? = some (dAt S (i + 1)) := by
        rw [List.getElem?_tail, getElem?_dAt (by omega)]
      rw [List.getElem?_zipWith, h1, h2]
      simp [hi]
    · rw [List.getElem?_eq_none]
      · simp [hi]
      · simp [npDiff_length]; omega
  constructor
  · rintro ⟨i, hi, rfl⟩
    obtain ⟨h1, h2, h3⟩ := (key i).1 hi
    exact ⟨by omega, by omega, by simpa using h2, h3⟩
  · rintro ⟨h1, h2, h3, h4⟩
    refine ⟨m - 1, (key _).2 ⟨by omega, h3, ?_⟩, by omega⟩
    rw [show m - 1 + 1 = m by omega]; exact h4

theorem jumps_sorted (P Q : K → Bool) (S : List K) : (jumps P Q S).Pairwise (· < ·) := by
  unfold jumps
  rw [List.pairwise_map]
  exact (nonzero_sorted _).imp (fun h => by omega)

theorem flats_sorted (P Q : K → Bool) (S : List K) : (flats P Q S).Pairwise (· < ·) := by
  unfold flats
  rw [List.pairwise_map]
  apply List.Pairwise.filter
  have h : (usedRuns S).Pairwise (fun p q => p.2 < q.1) := ((runs_sorted _).filter _).filter _
  have hlt : ∀ p ∈ usedRuns S, p.1 < p.2 := fun p hp => (mem_usedRuns.1 hp).1
  refine h.imp_of_mem ?_
  intro p q hp hq hpq
  have h1 := roundHalf_mem (hlt p hp).le
  have h2 := roundHalf_mem (hlt q hq).le
  rw [Nat.add_comm p.2, Nat.add_comm q.2]
  omega

theorem mem_flats {P Q : K → Bool} {S : List K} {m : Nat} : m ∈ flats P Q S ↔
    ∃ s e, (s, e) ∈ usedRuns S ∧ P (dBefore S s) = true ∧ Q (dAt S e) = true ∧ m = roundHalf (s + e) := by
  unfold flats
  simp only [List.mem_map, List.mem_filter, Bool.and_eq_true, Prod.exists]
  constructor
  · rintro ⟨s, e, ⟨h1, h2, h3⟩, rfl⟩
    exact ⟨s, e, h1, h2, h3, by rw [Nat.add_comm]⟩
  · rintro ⟨s, e, h1, h2, h3, rfl⟩
    exact ⟨s, e, ⟨h1, h2, h3⟩, by rw [Nat.add_comm]⟩

theorem jumps_disjoint_flats {P Q P' Q' : K → Bool} (hP : P 0 = false) (hQ : Q 0 = false) {S : List K} {m : Nat}
    (h : m ∈ jumps P Q S) : m ∉ flats P' Q' S := by
  intro h'
  obtain ⟨h1, h2, h3, h4⟩ := mem_jumps.1 h
  obtain ⟨s, e, hr, -, -, rfl⟩ := mem_flats.1 h'
  obtain ⟨g1, g2, g3, -⟩ := mem_usedRuns.1 hr
  have hm := roundHalf_mem g1.le
  by_cases he : roundHalf (s + e) < e
  · rw [g3 _ hm.1 he, hQ] at h4; cases h4
  · rw [g3 (roundHalf (s + e) - 1) (by omega) (by omega), hP] at h3; cases h3

/-- Indices reported for the sign pattern `P`, `Q`. -/
def reported (P Q : K → Bool) (S : List K) : List Nat :=
  if (flats P Q S).isEmpty then jumps P Q S else npSort (jumps P Q S ++ flats P Q S)

theorem reported_spec (P Q : K → Bool) (hP : P 0 = false) (hQ : Q 0 = false) (S : List K) :
    (reported P Q S).Pairwise (· < ·) ∧ ∀ m, m ∈ reported P Q S ↔ m ∈ jumps P Q S ∨ m ∈ flats P Q S := by
  have := merge_spec (jumps P Q S) (flats P Q S) (!(flats P Q S).isEmpty) (by simp)
    (jumps_sorted P Q S) (flats_sorted P Q S) (fun a ha => jumps_disjoint_flats hP hQ ha)
  unfold reported
  cases h : (flats P Q S).isEmpty
  · simpa [h] using this
  · simpa [h] using this

/-- Positive. -/
def isPos (x : K) : Bool := decide (0 < x)
/-- Negative. -/
def isNeg (x : K) : Bool := decide (x < 0)

theorem extremaIdx_eq (S : List K) : extremaIdx S = .ok (reported isPos isNeg S, reported isNeg isPos S) := by
  have hmin : (nonzero (List.zipWith (fun sc a => sc && decide (a < lit 0))
      (List.zipWith (fun a b => decide (a * b < lit 0)) (npDiff S).dropLast (npDiff S).tail) (npDiff S).dropLast)).map (· + 1)
      = jumps isNeg isPos S := by
    unfold jumps
    congr 2
    generalize (npDiff S).dropLast = d1
    generalize (npDiff S).tail = d2
    induction d1 generalizing d2 with
    | nil => simp
    | cons a d1 ih => cases d2 with
      | nil => simp
      | cons b d2 =>
        simp only [List.zipWith_cons_cons, ih, List.cons.injEq, and_true]
        rw [Bool.eq_iff_iff]
        simp only [lit_zero, isNeg, isPos, Bool.and_eq_true, decide_eq_true_eq]
        constructor
        · rintro ⟨h1, h2⟩
          exact ⟨h2, by rcases mul_neg_iff.1 h1 with h | h <;> [exact absurd h.1 (not_lt.2 h2.le); exact h.2]⟩
        · rintro ⟨h1, h2⟩
          exact ⟨mul_neg_of_neg_of_pos h1 h2, h1⟩
  have hmax : (nonzero (List.zipWith (fun sc a => sc && decide (lit 0 < a))
      (List.zipWith (fun a b => decide (a * b < lit 0)) (npDiff S).dropLast (npDiff S).tail) (npDiff S).dropLast)).map (· + 1)
      = jumps isPos isNeg S := by
    unfold jumps
    congr 2
    generalize (npDiff S).dropLast = d1
    generalize (npDiff S).tail = d2
    induction d1 generalizing d2 with
    | nil => simp
    | cons a d1 ih => cases d2 with
      | nil => simp
      | cons b d2 =>
        simp only [List.zipWith_cons_cons, ih, List.cons.injEq, and_true]
        rw [Bool.eq_iff_iff]
        simp only [lit_zero, isNeg, isPos, Bool.and_eq_true, decide_eq_true_eq]
        constructor
        · rintro ⟨h1, h2⟩
          exact ⟨h2, by rcases mul_neg_iff.1 h1 with h | h <;> [exact h.2; exact absurd h.1 (not_lt.2 h2.le)]⟩
        · rintro ⟨h1, h2⟩
          exact ⟨mul_neg_of_pos_of_neg h1 h2, h1⟩
  have hnil : usedRuns S = [] → ∀ P Q : K → Bool, reported P Q S = jumps P Q S := by
    intro h P Q
    simp [reported, flats, h]
  unfold extremaIdx
  simp only [hmin, hmax]
  by_cases hany : (npDiff S).any (fun x => x == lit 0) = true
  · rw [if_pos hany, usedRuns_eq]
    simp only [List.length_map]
    by_cases hlen : 0 < (usedRuns S).length
    · rw [if_pos hlen]
      have e1 : pyTake (npDiff S) (((usedRuns S).map (·.1)).map (fun k : Nat => (k : Int) - 1)) =
          .ok ((usedRuns S).map (fun p => dBefore S p.1)) := by
        rw [List.map_map]
        exact pyTake_map _ _ _ _ (fun p hp => pyGet_dBefore (e := p.2) hp)
      have e2 : pyTake (npDiff S) (((usedRuns S).map (·.2)).map (fun k : Nat => (k : Int))) =
          .ok ((usedRuns S).map (fun p => dAt S p.2)) := by
        rw [List.map_map]
        exact pyTake_map _ _ _ _ (fun p hp => pyGet_dAfter (s := p.1) hp)
      have e3 : List.zipWith (fun f b => roundHalf (f + b)) ((usedRuns S).map (·.2)) ((usedRuns S).map (·.1)) =
          (usedRuns S).map (fun p => roundHalf (p.2 + p.1)) := by
        rw [List.zipWith_map, List.zipWith_self]
      have e4 : ∀ f : K → K → Bool, List.zipWith f ((usedRuns S).map (fun p => dBefore S p.1))
          ((usedRuns S).map (fun p => dAt S p.2)) = (usedRuns S).map (fun p => f (dBefore S p.1) (dAt S p.2)) := by
        intro f
        rw [List.zipWith_map, List.zipWith_self]
      have e5 : ∀ g : Nat × Nat → Bool, (((usedRuns S).map g).any id) =
          !(((usedRuns S).filter g).map (fun p => roundHalf (p.2 + p.1))).isEmpty := by
        intro g
        rw [List.any_map, Bool.eq_iff_iff]
        simp [List.any_eq_true]
      simp only [e1, e2, e3, e4, e5, maskSel_map, bind, Except.bind, pure, Except.pure, reported, flats]
      simp only [isPos, isNeg, lit_zero]
      have flip : ∀ (c : Bool) (x y : List Nat), (if (!c) = true then x else y) = (if c = true then y else x) := by
        intro c x y; cases c <;> rfl
      simp only [flip]
      congr!
    · rw [if_neg hlen]
      have h0 : usedRuns S = [] := List.eq_nil_of_length_eq_zero (by omega)
      rw [hnil h0, hnil h0]; rfl
  · rw [if_neg hany]
    have h0 : usedRuns S = [] := by
      rw [List.eq_nil_iff_forall_not_mem]
      rintro ⟨s, e⟩ hp
      obtain ⟨h1, h2, h3, -⟩ := mem_usedRuns.1 hp
      apply hany
      rw [List.any_eq_true]
      have hz := h3 s (le_refl _) h1
      have hmem := List.mem_of_getElem? (getElem?_dAt (S := S) (i := s) (by omega))
      exact ⟨_, hmem, by simp [hz]⟩
    rw [hnil h0, hnil h0]; rfl

end EMD
end PyEMD
