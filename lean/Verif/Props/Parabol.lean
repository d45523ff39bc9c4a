import Verif.Lemmas.Parabol
import Verif.Props.NoRaise

/-!
# Parabolic detection and its envelope knots (C19, C20, C23)
-/

set_option linter.unusedSectionVars false

namespace PyEMD
namespace EMD
open Spec PyEMD.Spec

variable {K : Type} [Field K] [LinearOrder K] [IsStrictOrderedRing K] [FloorRing K]

/-! ## C19 -/

/-- Indices of the samples that are kept: all but those equal to both their neighbours. -/
def Retained (S : List K) (R : List Nat) : Prop :=
  R.Pairwise (· < ·) ∧ ∀ i, i ∈ R ↔ i < S.length ∧ (i = 0 ∨ i + 1 = S.length ∨ S[i]? ≠ S[i - 1]? ∨ S[i]? ≠ S[i + 1]?)

/-- A point at least as high as the point before it and higher than the point after it. -/
def IsPeak (S : List K) (i : Nat) : Prop :=
  ∃ a b c, 1 ≤ i ∧ S[i - 1]? = some a ∧ S[i]? = some b ∧ S[i + 1]? = some c ∧ a ≤ b ∧ c < b

/-- A point at most as high as the point before it and lower than the point after it. -/
def IsDip (S : List K) (i : Nat) : Prop :=
  ∃ a b c, 1 ≤ i ∧ S[i - 1]? = some a ∧ S[i]? = some b ∧ S[i + 1]? = some c ∧ b ≤ a ∧ b < c

/-- The extrema reported for the retained points `T', S'`: one maximum per peak, one minimum per dip, in order, each the vertex of the
parabola through the point and its neighbours. -/
structure Vertices (T' S' : List K) (e : Extrema K) : Prop where
  maxima : ∃ I : List Nat, I.Pairwise (· < ·) ∧ (∀ i, i ∈ I ↔ IsPeak S' i) ∧ e.maxPos.length = e.maxVal.length ∧
    List.Forall₂ (fun i (q : K × K) => ∃ a < 0, VertexAt T' S' i a q.1 q.2) I (e.maxPos.zip e.maxVal)
  minima : ∃ I : List Nat, I.Pairwise (· < ·) ∧ (∀ i, i ∈ I ↔ IsDip S' i) ∧ e.minPos.length = e.minVal.length ∧
    List.Forall₂ (fun i (q : K × K) => ∃ a > 0, VertexAt T' S' i a q.1 q.2) I (e.minPos.zip e.minVal)

theorem retained_notDuplicate {S : List K} (h : 2 ≤ S.length) : Retained S (notDuplicate S) := by
  rw [notDuplicate_eq S h]
  refine ⟨List.pairwise_lt_range.filter _, fun i => ?_⟩
  rw [List.mem_filter, List.mem_range]
  refine and_congr_right fun hi => ?_
  simp only [Bool.or_eq_true, decide_eq_true_eq, Bool.not_eq_true', Bool.and_eq_false_iff, beq_eq_false_iff_ne, or_assoc]
  by_cases h0 : i = 0
  · simp [h0]
  by_cases h1 : i + 1 = S.length
  · exact ⟨fun _ => .inr (.inl h1), fun _ => .inr (.inl (by omega))⟩
  · have : ¬ (i = S.length - 1) := by omega
    simp only [h0, h1, this, false_or]
    rw [getElem?_sAt hi, getElem?_sAt (by omega : i - 1 < S.length), getElem?_sAt (by omega : i + 1 < S.length)]
    simp

/-- Retained indices are unique. -/
theorem Retained.eq {S : List K} {R R' : List Nat} (h : Retained S R) (h' : Retained S R') : R = R' :=
  (List.Perm.eq_of_pairwise (fun a b _ _ h1 h2 => absurd h1 (by omega)) h.1 h'.1
    ((List.perm_ext_iff_of_nodup (h.1.imp (fun h => Nat.ne_of_lt h)) (h'.1.imp (fun h => Nat.ne_of_lt h))).2
      (fun i => (h.2 i).trans (h'.2 i).symm)))

theorem vertices_of {T S : List K} (hl : T.length = S.length) (hT : T.Pairwise (· < ·)) (hr : Regular T S) (iz : List Nat) :
    Vertices T S
      { maxPos := ((parabolVertices T S).filter (fun v => decide (v.1 < lit 0))).map (·.2.1)
        maxVal := ((parabolVertices T S).filter (fun v => decide (v.1 < lit 0))).map (·.2.2)
        minPos := ((parabolVertices T S).filter (fun v => decide (lit 0 < v.1))).map (·.2.1)
        minVal := ((parabolVertices T S).filter (fun v => decide (lit 0 < v.1))).map (·.2.2)
        indzer := iz } := by
  constructor
  · refine ⟨triples S peakTest, triples_sorted _ _, fun i => ?_, by simp, ?_⟩
    · rw [mem_triples]
      simp [IsPeak, peakTest]
    · simp only []
      rw [zip_maps, List.forall₂_map_right_iff]
      exact (peaks_forall₂ hl hT hr).imp (fun i q h => ⟨q.1, h.1, h.2⟩)
  · refine ⟨triples S dipTest, triples_sorted _ _, fun i => ?_, by simp, ?_⟩
    · rw [mem_triples]
      simp [IsDip, dipTest]
    · simp only []
      rw [zip_maps, List.forall₂_map_right_iff]
      exact (dips_forall₂ hl hT hr).imp (fun i q h => ⟨q.1, h.1, h.2⟩)

/-- C19, the complete characterisation.  Among the retained samples (those that differ from one of their neighbours) exactly the peaks and
the dips give extrema, each at the vertex of the parabola through the sample and its neighbours, which lies between the midpoints to
the neighbours. `hr` excludes triples of points on a line for which the replacement coefficient `1e-14` happens to put a
"vertex" into the window. -/
theorem C19_characterised (T S : List K) (hS : 2 ≤ S.length) (hl : T.length = S.length) (hT : T.Pairwise (· < ·)) (R : List Nat)
    (hR : Retained S R) (hr : Regular (R.map (sAt T)) (R.map (sAt S))) :
    ∃ e, findExtrema .parabol T S = .ok e ∧ Vertices (R.map (sAt T)) (R.map (sAt S)) e := by
  obtain rfl := hR.eq (retained_notDuplicate hS)
  refine ⟨_, findExtremaParabol_eq T S hS hl, vertices_of (by simp) ?_ hr _⟩
  rw [List.pairwise_map]
  refine hR.1.imp_of_mem (fun {i j} hi hj hij => sAt_mono hT hij ?_)
  have := (hR.2 j).1 hj
  omega

/-- C19 as claimed, for signals without equal consecutive samples: a maximum is reported exactly for the samples that are higher than both
their neighbours, a minimum exactly for those that are lower.  Missing from the full claim: signals with equal consecutive samples, for
which it is false (`C19_counterexample`); for these `C19_characterised` says what is reported. -/
theorem C19_exact_partial (T S : List K) (hS : 2 ≤ S.length) (hl : T.length = S.length) (hT : T.Pairwise (· < ·)) (hf : NoFlat S)
    (hr : Regular T S) :
    ∃ e, findExtrema .parabol T S = .ok e ∧
      (∃ I : List Nat, I.Pairwise (· < ·) ∧
        (∀ i, i ∈ I ↔ ∃ a b c, 1 ≤ i ∧ S[i - 1]? = some a ∧ S[i]? = some b ∧ S[i + 1]? = some c ∧ a < b ∧ c < b) ∧
        e.maxPos.length = e.maxVal.length ∧
        List.Forall₂ (fun i (q : K × K) => ∃ a < 0, VertexAt T S i a q.1 q.2) I (e.maxPos.zip e.maxVal)) ∧
      (∃ I : List Nat, I.Pairwise (· < ·) ∧
        (∀ i, i ∈ I ↔ ∃ a b c, 1 ≤ i ∧ S[i - 1]? = some a ∧ S[i]? = some b ∧ S[i + 1]? = some c ∧ b < a ∧ b < c) ∧
        e.minPos.length = e.minVal.length ∧
        List.Forall₂ (fun i (q : K × K) => ∃ a > 0, VertexAt T S i a q.1 q.2) I (e.minPos.zip e.minVal)) := by
  have hT' : (List.range S.length).map (sAt T) = T := by rw [← hl]; exact map_sAt_range T
  have hR := retained_notDuplicate hS
  rw [notDuplicate_noFlat hS hf] at hR
  have h := C19_characterised T S hS hl hT (List.range S.length) hR
  rw [hT', map_sAt_range] at h
  obtain ⟨e, he, ⟨I, i1, i2, i3, i4⟩, ⟨J, j1, j2, j3, j4⟩⟩ := h hr
  have flip : ∀ i a b, 1 ≤ i → S[i - 1]? = some a → S[i]? = some b → a ≠ b := by
    intro i a b hi ha hb
    obtain ⟨j, rfl⟩ : ∃ j, i = j + 1 := ⟨i - 1, by omega⟩
    exact hf j a b ha hb
  refine ⟨e, he, ⟨I, i1, fun i => (i2 i).trans ⟨?_, ?_⟩, i3, i4⟩, ⟨J, j1, fun i => (j2 i).trans ⟨?_, ?_⟩, j3, j4⟩⟩
  · rintro ⟨a, b, c, h1, h2, h3, h4, h5, h6⟩
    exact ⟨a, b, c, h1, h2, h3, h4, lt_of_le_of_ne h5 (flip i a b h1 h2 h3), h6⟩
  · rintro ⟨a, b, c, h1, h2, h3, h4, h5, h6⟩
    exact ⟨a, b, c, h1, h2, h3, h4, h5.le, h6⟩
  · rintro ⟨a, b, c, h1, h2, h3, h4, h5, h6⟩
    exact ⟨a, b, c, h1, h2, h3, h4, lt_of_le_of_ne h5 (flip i a b h1 h2 h3).symm, h6⟩
  · rintro ⟨a, b, c, h1, h2, h3, h4, h5, h6⟩
    exact ⟨a, b, c, h1, h2, h3, h4, h5.le, h6⟩

/-- Uneven time stamps; the maximum lies between the samples at 1 and 3. -/
example : okWith (fun e => e.maxPos == [(13 / 8 : ℚ)] && e.maxVal == [(169 / 48 : ℚ)] && e.minPos == [(11 / 4 : ℚ)])
    (findExtrema .parabol [0, 1, 3, 4] ([0, 3, 1, 2] : List ℚ)) = true := by decide +kernel

/-- C19 fails: a shoulder of the falling signal `3, 2, 2, 1` is reported as a maximum, although no sample is a maximum. -/
theorem C19_counterexample : ([3, 2, 2, 1] : List ℚ).Pairwise (· ≥ ·) ∧
    okWith (fun e => e.maxPos == [(3 / 2 : ℚ)] && e.maxVal == [(17 / 8 : ℚ)]) (findExtrema .parabol [0, 1, 2, 3] ([3, 2, 2, 1] : List ℚ)) = true := by
  decide +kernel

/-! ## C20, parabolic mode -/

/-- A harmless triple, from points that do not lie on a line. -/
theorem harmless_of_bent {Tp T0 Tn Sp S0 Sn : K} (h : (S0 - Sp) * (Tn - T0) ≠ (Sn - S0) * (T0 - Tp)) :
    HarmlessTriple Tp T0 Tn Sp S0 Sn := fun h' => absurd h' h

/-- A harmless triple, from a rising pair at positive times. -/
theorem harmless_of_rising {Tp T0 Tn Sp S0 Sn : K} (h0 : 0 ≤ Tp) (hT : Tp < T0) (h : Sp ≤ S0) : HarmlessTriple Tp T0 Tn Sp S0 Sn := by
  intro _
  left
  have h1 : 0 ≤ (S0 - Sp) / (T0 - Tp) := div_nonneg (sub_nonneg.2 h) (sub_nonneg.2 hT.le)
  have h2 : 0 < (Tp + T0) / 2 := by linarith
  linarith

theorem noFlat_of_strict {S : List K} (h : S.Pairwise (· < ·) ∨ S.Pairwise (· > ·)) : NoFlat S := by
  intro i a b ha hb
  obtain ⟨hi, rfl⟩ := List.getElem?_eq_some_iff.1 ha
  obtain ⟨hj, rfl⟩ := List.getElem?_eq_some_iff.1 hb
  rcases h with h | h
  · exact ne_of_lt (List.pairwise_iff_getElem.1 h i (i + 1) hi hj (by omega))
  · exact ne_of_gt (List.pairwise_iff_getElem.1 h i (i + 1) hi hj (by omega))

/-- C20 for parabolic detection, what holds of it: a strictly monotone signal has no extrema. Missing: monotone signals with equal
consecutive samples, for which it is false (`C20_counterexample`). -/
theorem C20_strict_parabolic_partial (T S : List K) (hS : 2 ≤ S.length) (hl : T.length = S.length) (hT : T.Pairwise (· < ·))
    (hm : S.Pairwise (· < ·) ∨ S.Pairwise (· > ·)) (hr : Regular T S) :
    ∃ e, findExtrema .parabol T S = .ok e ∧ e.maxPos = [] ∧ e.maxVal = [] ∧ e.minPos = [] ∧ e.minVal = [] := by
  obtain ⟨e, he, ⟨I, -, i2, i3, i4⟩, ⟨J, -, j2, j3, j4⟩⟩ := C19_exact_partial T S hS hl hT (noFlat_of_strict hm) hr
  have mono : ∀ i j : Nat, i < j → ∀ x y : K, S[i]? = some x → S[j]? = some y → (S.Pairwise (· < ·) → x < y) ∧ (S.Pairwise (· > ·) → y < x) := by
    intro i j hij x y hx hy
    obtain ⟨hi, rfl⟩ := List.getElem?_eq_some_iff.1 hx
    obtain ⟨hj, rfl⟩ := List.getElem?_eq_some_iff.1 hy
    exact ⟨fun h => List.pairwise_iff_getElem.1 h i j hi hj hij, fun h => List.pairwise_iff_getElem.1 h i j hi hj hij⟩
  have hI : I = [] := by
    rw [List.eq_nil_iff_forall_not_mem]
    intro i hi
    obtain ⟨a, b, c, h1, h2, h3, h4, h5, h6⟩ := (i2 i).1 hi
    rcases hm with hm | hm
    · exact absurd ((mono i (i + 1) (by omega) b c h3 h4).1 hm) (not_lt.2 h6.le)
    · exact absurd ((mono (i - 1) i (by omega) a b h2 h3).2 hm) (not_lt.2 h5.le)
  have hJ : J = [] := by
    rw [List.eq_nil_iff_forall_not_mem]
    intro i hi
    obtain ⟨a, b, c, h1, h2, h3, h4, h5, h6⟩ := (j2 i).1 hi
    rcases hm with hm | hm
    · exact absurd ((mono (i - 1) i (by omega) a b h2 h3).1 hm) (not_lt.2 h5.le)
    · exact absurd ((mono i (i + 1) (by omega) b c h3 h4).2 hm) (not_lt.2 h6.le)
  subst hI
  subst hJ
  have nil : ∀ p v : List K, p.length = v.length → p.zip v = [] → p = [] ∧ v = [] := by
    intro p v hpv hz
    cases p with
    | nil => exact ⟨rfl, List.length_eq_zero_iff.1 hpv.symm⟩
    | cons x p =>
      cases v with
      | nil => simp at hpv
      | cons y v => simp at hz
  obtain ⟨a1, a2⟩ := nil _ _ i3 (List.forall₂_nil_left_iff.1 i4)
  obtain ⟨b1, b2⟩ := nil _ _ j3 (List.forall₂_nil_left_iff.1 j4)
  exact ⟨e, he, a1, a2, b1, b2⟩

/-- Falling, with uneven steps. -/
example : ∃ e, findExtrema .parabol [0, 1, 2, 4] ([9, 5, 3, (2 : ℚ)] : List ℚ) = .ok e ∧ e.maxPos = [] ∧ e.maxVal = [] ∧ e.minPos = [] ∧ e.minVal = [] := by
  refine C20_strict_parabolic_partial _ _ (by simp) rfl (by simp; norm_num) (.inr (by simp; norm_num)) ?_
  intro i Tp T0 Tn Sp S0 Sn h1 h2 h3 h4 h5 h6
  apply harmless_of_bent
  match i with
  | 0 => cases h1; cases h2; cases h3; cases h4; cases h5; cases h6; norm_num
  | 1 => cases h1; cases h2; cases h3; cases h4; cases h5; cases h6; norm_num
  | i + 2 => simp at h3

theorem normalizeTime_strict (T : List K) (hl : 2 ≤ T.length) (hT : T.Pairwise (· < ·)) :
    ∃ T', normalizeTime T = .ok T' ∧ T'.length = T.length ∧ T'.Pairwise (· < ·) ∧ ∀ t ∈ T', 0 ≤ t := by
  have hpos : ∀ x ∈ npDiff T, 0 < x := by
    intro x hx
    obtain ⟨i, hi, rfl⟩ := List.getElem_of_mem hx
    rw [npDiff_getElem]
    exact sub_pos.2 (List.pairwise_iff_getElem.1 hT i (i + 1) _ _ (by omega))
  have hne : npDiff T ≠ [] := by
    rw [← List.length_pos_iff, npDiff_length]
    omega
  have hmin := hpos _ (npMin_spec hne).1
  refine ⟨_, normalizeTime_ok T hl (fun x hx => (hpos x hx).ne'), by simp, ?_, ?_⟩
  · rw [List.pairwise_map]
    refine hT.imp (fun {a b} h => ?_)
    rw [div_lt_div_iff_of_pos_right hmin]
    linarith
  · intro t ht
    obtain ⟨x, hx, rfl⟩ := List.mem_map.1 ht
    refine div_nonneg (sub_nonneg.2 ?_) hmin.le
    obtain ⟨i, hi, rfl⟩ := List.getElem_of_mem hx
    by_cases h0 : i = 0
    · simp [h0]
    · exact (List.pairwise_iff_getElem.1 hT 0 i (by omega) hi (by omega)).le

theorem prepareTime_strict (cfg : Cfg K) (S : List K) (hS : 2 ≤ S.length) (T : Option (List K))
    (hT : ∀ T', T = some T' → T'.length = S.length ∧ T'.Pairwise (· < ·)) :
    ∃ T', prepareTime cfg S T = .ok T' ∧ T'.length = S.length ∧ T'.Pairwise (· < ·) ∧ ∀ t ∈ T', 0 ≤ t := by
  have ht : timeline S.length = .ok ((List.range S.length).map (fun k : Nat => (k : K))) := by
    unfold timeline
    rw [if_neg (by omega)]
    simp only [lit_nat]
  have hts : ((List.range S.length).map (fun k : Nat => (k : K))).Pairwise (· < ·) := by
    rw [List.pairwise_map]
    exact List.pairwise_lt_range.imp (fun h => by exact_mod_cast h)
  have htl := normalizeTime_strict ((List.range S.length).map (fun k : Nat => (k : K))) (by simpa using hS) hts
  simp only [List.length_map, List.length_range] at htl
  unfold prepareTime
  cases T with
  | none => simp only [ht, bind, Except.bind]; exact htl
  | some T' =>
    obtain ⟨h1, h2⟩ := hT T' rfl
    simp only [ht, bind, Except.bind]
    rw [if_neg (by rw [h1]; simp)]
    split
    · exact htl
    · have := normalizeTime_strict T' (by omega) h2
      rwa [h1] at this

theorem regular_rising {T S : List K} (hT : T.Pairwise (· < ·)) (h0 : ∀ t ∈ T, 0 ≤ t) (hS : S.Pairwise (· ≤ ·)) : Regular T S := by
  intro i Tp T0 Tn Sp S0 Sn h1 h2 h3 h4 h5 h6
  obtain ⟨a1, rfl⟩ := List.getElem?_eq_some_iff.1 h1
  obtain ⟨a2, rfl⟩ := List.getElem?_eq_some_iff.1 h2
  obtain ⟨a4, rfl⟩ := List.getElem?_eq_some_iff.1 h4
  obtain ⟨a5, rfl⟩ := List.getElem?_eq_some_iff.1 h5
  exact harmless_of_rising (h0 _ (List.getElem_mem _)) (List.pairwise_iff_getElem.1 hT i (i + 1) _ _ (by omega))
    (List.pairwise_iff_getElem.1 hS i (i + 1) _ _ (by omega))

/-- C20 for parabolic detection: `emd` returns every strictly increasing signal as a trend, for any strictly increasing time stamps.
Missing: strictly decreasing signals with three points on a nearly horizontal line, and see `C20_strict_parabolic_partial`. -/
theorem C20_rising_emd_partial (fuel : Nat) (sp : SciPy K) (o : Obj K) (S : List K) (T : Option (List K)) (mi : Int)
    (hd : o.cfg.detection = .parabol) (hM : 2 ≤ o.cfg.MAX_ITERATION) (hfuel : 1 ≤ fuel) (hS : 2 ≤ S.length)
    (hT : ∀ T', T = some T' → T'.length = S.length ∧ T'.Pairwise (· < ·)) (hm : S.Pairwise (· < ·)) :
    ∃ rows o', o.emd fuel sp S T mi = (.ok rows, o') ∧ o'.getImfsAndResidue = .ok ([], S) ∧
      ((Vanishes S ∧ rows = []) ∨ (¬ Vanishes S ∧ rows = [S])) := by
  obtain ⟨T', hpt, h1, h2, h3⟩ := prepareTime_strict o.cfg S hS T hT
  refine C11_few_extrema (fun x => by rw [lit_zero, sub_zero]) fuel sp o S T _ mi hfuel hM hpt ?_
  obtain ⟨e, he, g1, -, g2, -⟩ := C20_strict_parabolic_partial T' S hS h1 h2 (.inl hm) (regular_rising h2 h3 (hm.imp le_of_lt))
  exact ⟨e, by rw [hd]; exact he, by simp [g1, g2]⟩

/-- A ramp with uneven time stamps. -/
example : okWith (fun r => r.rows == [[0, 1, 3, 4, 9]])
    (emdPure 5 linSciPy { (Cfg.default : Cfg ℚ) with detection := .parabol } [0, 1, 3, 4, 9] (some [0, 1, 3, 7, 8]) (-1)) = true := by
  decide +kernel

/-! ## C23 -/

/-- C23: for alternating extrema, at least three, inside the time range, `prepare_points` (parabolic) returns increasing knots that cover the
whole time range and contain all extrema. -/
theorem C23_knots (nbsym : Int) (hnb : 1 ≤ nbsym) (T S : List K) (e : Extrema K) (t0 tL : K) (hS : S ≠ [])
    (h0 : T.head? = some t0) (hL : T.getLast? = some tL)
    (hA : e.maxPos.length = e.maxVal.length) (hB : e.minPos.length = e.minVal.length)
    (hi : Interleaved e.maxPos e.minPos ∨ Interleaved e.minPos e.maxPos) (h3 : 3 ≤ e.maxPos.length + e.minPos.length)
    (hin : ∀ x ∈ e.maxPos ++ e.minPos, t0 < x ∧ x < tL) :
    ∃ kmax kmin, preparePoints .parabol nbsym T S e = .ok (kmax, kmin) ∧
      CoveringKnots T S e.maxPos e.maxVal kmax ∧ CoveringKnots T S e.minPos e.minVal kmin :=
  preparePointsParabol_ok hnb h0 (List.head?_eq_some_head hS) hL (List.getLast?_eq_some_getLast hS) hA hB hi h3 hin

/-- Three extrema, two of them maxima. -/
example : ∃ kmax kmin, preparePoints .parabol 2 [0, 1, 2, 3, (4 : ℚ)] [0, 3, 1, 2, (0 : ℚ)]
      { maxPos := [5 / 4, 3], maxVal := [3, 2], minPos := [2], minVal := [1], indzer := [] } = .ok (kmax, kmin) ∧
    CoveringKnots [0, 1, 2, 3, (4 : ℚ)] [0, 3, 1, 2, (0 : ℚ)] [5 / 4, 3] [3, 2] kmax ∧
    CoveringKnots [0, 1, 2, 3, (4 : ℚ)] [0, 3, 1, 2, (0 : ℚ)] [2] [1] kmin := by
  refine C23_knots (K := ℚ) 2 (by decide) _ _ { maxPos := [5 / 4, 3], maxVal := [3, 2], minPos := [2], minVal := [1], indzer := [] } 0 4 (by simp)
    rfl rfl rfl rfl (.inl (.cons (by norm_num) (.cons (by norm_num) (.one _)))) (by decide) ?_
  intro x hx
  simp only [List.cons_append, List.nil_append, List.mem_cons, List.not_mem_nil, or_false] at hx
  rcases hx with rfl | rfl | rfl <;> norm_num

/-- C23 for what the detector reports: signals without equal consecutive samples have alternating extrema inside the time range, so that the
knots of both envelopes are increasing and cover the time range. -/
theorem C23_detected (nbsym : Int) (hnb : 1 ≤ nbsym) (T S : List K) (hS : 2 ≤ S.length) (hl : T.length = S.length)
    (hT : T.Pairwise (· < ·)) (hf : NoFlat S) (hr : Regular T S) (e : Extrema K) (he : findExtrema .parabol T S = .ok e)
    (h3 : 3 ≤ e.maxPos.length + e.minPos.length) :
    (Interleaved e.maxPos e.minPos ∨ Interleaved e.minPos e.maxPos) ∧
    ∃ kmax kmin, preparePoints .parabol nbsym T S e = .ok (kmax, kmin) ∧
      CoveringKnots T S e.maxPos e.maxVal kmax ∧ CoveringKnots T S e.minPos e.minVal kmin := by
  have hT' : (List.range S.length).map (sAt T) = T := by rw [← hl]; exact map_sAt_range T
  have he' := findExtremaParabol_eq T S hS hl
  rw [notDuplicate_noFlat hS hf, hT', map_sAt_range, lit_zero] at he'
  rw [show findExtrema .parabol T S = _ from he'] at he
  obtain rfl := Except.ok.inj he
  obtain ⟨t0, h0⟩ : ∃ t0, T.head? = some t0 := ⟨_, List.head?_eq_some_head (by rintro rfl; simp at hl; omega)⟩
  have hne : T ≠ [] := by rintro rfl; cases h0
  have hi : Interleaved (((parabolVertices T S).filter (fun v => decide (v.1 < 0))).map (·.2.1))
        (((parabolVertices T S).filter (fun v => decide (0 < v.1))).map (·.2.1)) ∨
      Interleaved (((parabolVertices T S).filter (fun v => decide (0 < v.1))).map (·.2.1))
        (((parabolVertices T S).filter (fun v => decide (v.1 < 0))).map (·.2.1)) := by
    match T, S, hS, hl, hT, hr, hf with
    | Tp :: T0 :: T, Sp :: S0 :: S, _, _, hT, hr, hf =>
      have h := (vertices_alternate hT hr hf).1
      cases hb : decide (Sp < S0)
      · rw [hb] at h
        exact .inr ((alternates_interleaved _).2 h)
      · rw [hb] at h
        exact .inl ((alternates_interleaved _).1 h)
  refine ⟨hi, C23_knots nbsym hnb T S _ t0 (T.getLast hne) (by rintro rfl; simp at hS) h0 (List.getLast?_eq_some_getLast hne)
    (by simp) (by simp) hi h3 ?_⟩
  have hall : ∀ q ∈ parabolVertices T S, t0 < q.2.1 ∧ q.2.1 < T.getLast hne := by
    intro q hq
    rw [parabolVertices_eq T S hl, List.mem_filterMap] at hq
    obtain ⟨i, hi, hq⟩ := hq
    rw [List.mem_range] at hi
    have a1 := sAt_mono hT (Nat.lt_succ_self i) (by omega)
    have a2 := sAt_mono hT (Nat.lt_succ_self (i + 1)) (by omega)
    have b1 : t0 ≤ sAt T i := by
      have e0 : t0 = sAt T 0 := by
        match T, h0 with
        | _ :: _, h0 => cases h0; rfl
      rw [e0]
      by_cases h : i = 0
      · rw [h]
      · exact (sAt_mono hT (by omega) (by omega)).le
    have b2 : sAt T (i + 2) ≤ T.getLast hne := by
      have eL : T.getLast hne = sAt T (T.length - 1) := by
        rw [List.getLast_eq_getElem, sAt, List.getD_eq_getElem?_getD, List.getElem?_eq_getElem (by omega)]
        rfl
      rw [eL]
      by_cases h : i + 2 = T.length - 1
      · rw [h]
      · exact (sAt_mono hT (by omega) (by omega)).le
    have key : ∀ a t v, IsVertex (sAt T i) (sAt T (i + 1)) (sAt T (i + 2)) (sAt S i) (sAt S (i + 1)) (sAt S (i + 2)) a t v →
        t0 < t ∧ t < T.getLast hne := by
      intro a t v h
      have c1 := h.lo
      have c2 := h.hi
      simp only [Nat.succ_eq_add_one] at a1 a2
      constructor <;> linarith
    rcases parabolVertex_cases a1 a2 (regular_at hr (by omega) (by omega)) with
      ⟨-, a, t, v, g2, -, g4⟩ | ⟨-, a, t, v, g2, -, g4⟩ | ⟨-, -, g2⟩
    · rw [hq] at g2
      obtain rfl := Option.some.inj g2
      exact key _ _ _ g4
    · rw [hq] at g2
      obtain rfl := Option.some.inj g2
      exact key _ _ _ g4
    · rw [hq] at g2
      cases g2
  intro x hx
  simp only [List.mem_append, List.mem_map] at hx
  rcases hx with ⟨q, hq, rfl⟩ | ⟨q, hq, rfl⟩
  · exact hall q (List.mem_of_mem_filter hq)
  · exact hall q (List.mem_of_mem_filter hq)

/-- C23, consequence for the envelopes: `extract_max_min_spline` returns two envelopes with one value per sample. -/
theorem C23_envelopes (sp : SciPy K) (hsp : AcceptsAll sp) (kind : SplineKind) (hk : kind ≠ .unknown) (nbsym : Int) (hnb : 1 ≤ nbsym)
    (T S : List K) (hS : 2 ≤ S.length) (hl : T.length = S.length) (hT : T.Pairwise (· < ·)) (hf : NoFlat S) (hr : Regular T S)
    (e : Extrema K) (he : findExtrema .parabol T S = .ok e) (h3 : 3 ≤ e.maxPos.length + e.minPos.length) :
    ∃ E, extractMaxMinSpline sp .parabol kind nbsym T S = .ok (some E) ∧ E.maxEnv.length = S.length ∧ E.minEnv.length = S.length := by
  obtain ⟨-, kmax, kmin, h1, g1, g2⟩ := C23_detected nbsym hnb T S hS hl hT hf hr e he h3
  have cov : ∀ pos val k, CoveringKnots T S pos val k → ∃ p q : K × K, k.head? = some p ∧ k.getLast? = some q ∧ ∀ τ ∈ T, p.1 ≤ τ ∧ τ ≤ q.1 := by
    intro pos val k h
    obtain ⟨p, t, c1, c2, c3⟩ := h.first
    obtain ⟨q, t', c4, c5, c6⟩ := h.last
    refine ⟨p, q, c1, c4, fun τ hτ => ⟨c3.trans ?_, le_trans ?_ c6⟩⟩
    · cases T with
      | nil => cases hτ
      | cons t1 T =>
        cases c2
        rcases List.mem_cons.1 hτ with rfl | hτ
        · exact le_refl _
        · exact ((List.pairwise_cons.1 hT).1 τ hτ).le
    · have hne : T ≠ [] := by rintro rfl; cases hτ
      rw [List.getLast?_eq_some_getLast hne] at c5
      obtain rfl := Option.some.inj c5
      rw [← List.dropLast_append_getLast hne] at hτ
      rcases List.mem_append.1 hτ with hτ | hτ
      · have := hT
        rw [← List.dropLast_append_getLast hne, List.pairwise_append] at this
        exact (this.2.2 τ hτ _ (by simp)).le
      · rw [List.mem_singleton] at hτ
        exact hτ.le
  obtain ⟨t1, q1, s1, l1⟩ := splinePoints_cover hsp hk (hT.imp le_of_lt) g1.three g1.increasing (cov _ _ _ g1)
  obtain ⟨t2, q2, s2, l2⟩ := splinePoints_cover hsp hk (hT.imp le_of_lt) g2.three g2.increasing (cov _ _ _ g2)
  unfold extractMaxMinSpline
  simp only [he, bind, Except.bind]
  rw [if_neg (by omega)]
  simp only [h1, s1, s2, pure, Except.pure]
  exact ⟨_, rfl, by rw [← hl]; exact l1, by rw [← hl]; exact l2⟩

theorem sample_noFlat : NoFlat ([0, 3, 1, 2, 0] : List ℚ) := by
  intro i a b h1 h2
  match i with
  | 0 => cases h1; cases h2; norm_num
  | 1 => cases h1; cases h2; norm_num
  | 2 => cases h1; cases h2; norm_num
  | 3 => cases h1; cases h2; norm_num
  | i + 4 => simp at h2

theorem sample_regular : Regular ([0, 1, 2, 3, 4] : List ℚ) [0, 3, 1, 2, 0] := by
  intro i Tp T0 Tn Sp S0 Sn h1 h2 h3 h4 h5 h6
  apply harmless_of_bent
  match i with
  | 0 => cases h1; cases h2; cases h3; cases h4; cases h5; cases h6; norm_num
  | 1 => cases h1; cases h2; cases h3; cases h4; cases h5; cases h6; norm_num
  | 2 => cases h1; cases h2; cases h3; cases h4; cases h5; cases h6; norm_num
  | i + 3 => simp at h3

/-- All hypotheses together. -/
example : ∃ E, extractMaxMinSpline linSciPy .parabol .cubic 2 [0, 1, 2, 3, (4 : ℚ)] [0, 3, 1, 2, 0] = .ok (some E) ∧
    E.maxEnv.length = 5 ∧ E.minEnv.length = 5 := by
  have h : okWith (fun e => decide (3 ≤ e.maxPos.length + e.minPos.length)) (findExtrema .parabol [0, 1, 2, 3, (4 : ℚ)] [0, 3, 1, 2, 0]) = true := by
    decide +kernel
  obtain ⟨e, he, h3⟩ := okWith_iff.1 h
  exact C23_envelopes linSciPy linSciPy_accepts .cubic (by decide) 2 (by decide) _ _ (by decide) rfl (by simp; norm_num) sample_noFlat
    sample_regular e he (by simpa using h3)

/-- Without the hypothesis on equal samples the knots need not exist: a rising staircase has three minima and no maximum, and
`prepare_points` raises `IndexError`. -/
theorem C23_staircase : errIs .indexError (extractMaxMinSpline linSciPy .parabol .cubic 2 [0, 1, 2, 3, 4, 5, 6, 7, 8, (9 : ℚ)]
    [0, 1, 1, 2, 3, 3, 4, 5, 5, 6]) = true := by decide +kernel

end EMD
end PyEMD
