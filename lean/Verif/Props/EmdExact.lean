import Verif.Lemmas.Exact
import Verif.Props.EmdLoop

/-!
# C01, C04, C13, C25, C29, C30: exact-arithmetic properties of `EMD.emd`
-/

set_option linter.unusedSectionVars false

namespace PyEMD
namespace EMD
open Spec

section
variable {α : Type} [Add α] [Sub α] [Mul α] [Div α] [Neg α] [LT α] [LE α] [BEq α]
  [DecidableLT α] [DecidableLE α] [NpScalar α]

/-! ## C04 -/

theorem pyGet_last {β : Type} (l : List β) (h : l ≠ []) : pyGet l (-1) = .ok (l.getLast h) := by
  have hpos := List.length_pos_iff.2 h
  have : pyIdx l.length (-1) = some (l.length - 1) := by
    unfold pyIdx
    rw [if_neg (by omega), if_pos (by omega)]
    congr 1
    omega
  unfold pyGet
  rw [this]
  simp only
  rw [List.getElem?_eq_getElem (by omega), List.getLast_eq_getElem]

theorem pyGet_last_nil {β : Type} : pyGet ([] : List β) (-1) = .error .indexError := rfl

/-- C04, what holds of it: after `emd` returned the rows `R`, `get_imfs_and_trend()` is `R` split into all rows but the
last and the last row, *provided `R` is not empty*.  Missing: for an empty `R` the accessor raises, see
`C04_counterexample`; `C04_trend_error_iff` shows that this is the only exception. Law-free. -/
theorem C04_imfs_and_trend_partial (fuel : Nat) (sp : SciPy α) (o o' : Obj α) (S : List α) (T : Option (List α))
    (m : Int) (rows : List (List α)) (h : o.emd fuel sp S T m = (.ok rows, o')) (hne : rows ≠ []) :
    o'.getImfsAndTrend = .ok (rows.dropLast, rows.getLast hne) := by
  obtain ⟨imfs, res, h1, -, ⟨hv, rfl⟩ | ⟨hv, rfl⟩⟩ := C03_rows_vs_stored fuel sp o o' S T m rows h
  · simp only [Obj.getImfsAndTrend, h1, bind, Except.bind, (allclose0_iff _).2 hv, if_true, pyGet_last _ hne]
    rfl
  · have hv' : ¬ allclose0 res = true := fun hc => hv ((allclose0_iff _).1 hc)
    simp only [Obj.getImfsAndTrend, h1, bind, Except.bind, if_neg hv']
    simp [pure, Except.pure]

/-- C04: the accessor raises exactly when `emd` returned no row at all, and then it is `IndexError`. -/
theorem C04_trend_error_iff (fuel : Nat) (sp : SciPy α) (o o' : Obj α) (S : List α) (T : Option (List α))
    (m : Int) (rows : List (List α)) (h : o.emd fuel sp S T m = (.ok rows, o')) :
    (∃ e, o'.getImfsAndTrend = .error e) ↔ rows = [] ∧ o'.getImfsAndTrend = .error .indexError := by
  constructor
  · rintro ⟨e, he⟩
    by_cases hne : rows = []
    · refine ⟨hne, ?_⟩
      obtain ⟨imfs, res, h1, -, ⟨hv, h2⟩ | ⟨hv, h2⟩⟩ := C03_rows_vs_stored fuel sp o o' S T m rows h
      · have himf : imfs = [] := by rw [← h2, hne]
        subst himf
        simp only [Obj.getImfsAndTrend, h1, bind, Except.bind, (allclose0_iff _).2 hv, if_true, pyGet_last_nil]
      · rw [hne] at h2; simp at h2
    · rw [C04_imfs_and_trend_partial fuel sp o o' S T m rows h hne] at he
      cases he
  · rintro ⟨-, h2⟩
    exact ⟨_, h2⟩

end

/-- C04 fails: the zero signal decomposes to nothing and `get_imfs_and_trend()` raises `IndexError`. -/
theorem C04_counterexample : ∃ o' : Obj ℚ,
    (Obj.mk Cfg.default none none).emd 5 linSciPy [0, 0, 0] none (-1) = (.ok [], o') ∧
      o'.getImfsAndTrend = .error .indexError := by
  have h : okWith (fun r => r.rows.isEmpty)
      (emdPure 5 linSciPy (Cfg.default : Cfg ℚ) [0, 0, 0] none (-1)) = true := by decide +kernel
  obtain ⟨r, hr, h⟩ := okWith_iff.1 h
  rw [List.isEmpty_iff] at h
  have hemd : (Obj.mk Cfg.default none none).emd 5 linSciPy ([0, 0, 0] : List ℚ) none (-1) =
      (.ok [], ⟨Cfg.default, some r.imfs, some r.residue⟩) := by simp only [Obj.emd, hr, h]
  refine ⟨_, hemd, ?_⟩
  obtain ⟨imfs, res, h1, -, ⟨hv, h2⟩ | ⟨hv, h2⟩⟩ := C03_rows_vs_stored _ _ _ _ _ _ _ _ hemd
  · subst h2
    simp only [Obj.getImfsAndTrend, h1, bind, Except.bind, (allclose0_iff _).2 hv, if_true, pyGet_last_nil]
  · simp at h2

/-- Non-vacuity of C04: a decomposition with three rows. -/
example : okWith (fun r => r.rows.length == 3) (emdPure 20 linSciPy sampleCfg sampleS none (-1)) = true := by
  decide +kernel

variable {K : Type} [Field K] [LinearOrder K] [IsStrictOrderedRing K] [FloorRing K]

/-! ## C01 -/

/-- C01: the returned rows add up to the signal, sample by sample: exactly when a residue row was appended (one row more
than stored components), and within `1e-8` in any case. -/
theorem C01_reconstruction (fuel : Nat) (sp : SciPy K) (o o' : Obj K) (S : List K) (T : Option (List K)) (m : Int)
    (rows : List (List K)) (h : o.emd fuel sp S T m = (.ok rows, o')) :
    ∃ imfs res, o'.getImfsAndResidue = .ok (imfs, res) ∧ (rows.length = imfs.length ∨ rows.length = imfs.length + 1) ∧
      ∀ i (hi : i < S.length),
        |S[i] - (rows.map (fun r => r.getD i 0)).sum| ≤ 1 / 100000000 ∧
        (rows.length = imfs.length + 1 → (rows.map (fun r => r.getD i 0)).sum = S[i]) := by
  obtain ⟨imfs, res, h1, ⟨hrl, hres⟩, h2⟩ := C03_rows_vs_stored fuel sp o o' S T m rows h
  refine ⟨imfs, res, h1, ?_, fun i hi => ?_⟩
  · rcases h2 with ⟨-, rfl⟩ | ⟨-, rfl⟩ <;> simp
  obtain ⟨s, hs, hr⟩ := hres i hi
  rw [List.getElem?_eq_getElem hi, Option.some.injEq] at hs
  subst hs
  rw [colSum_eq] at hr
  rcases h2 with ⟨hv, rfl⟩ | ⟨hv, rfl⟩
  · refine ⟨?_, fun hc => by omega⟩
    have := hv _ (List.mem_of_getElem? hr)
    rw [pyAbs_eq, lit_eq] at this
    simpa using this
  · have : ((imfs ++ [res]).map (fun r => r.getD i 0)).sum = S[i] := by
      simp [hr]
    rw [this]
    simp

example : okWith (fun r => r.rows.length == r.imfs.length + 1) (emdPure 20 linSciPy sampleCfg sampleS none (-1)) = true ∧
    okWith (fun r => r.rows.length == r.imfs.length && r.rows.length == 1)
      (emdPure 20 linSciPy sampleCfg [1, -1, 1, -1, 1, -1, 1] none (-1)) = true := by
  decide +kernel

/-! ## C25 -/

/-- C25: a strictly increasing time array of at least two stamps is normalised to an array of the same length which
starts with 0, is strictly increasing, and whose smallest increase is exactly 1. -/
theorem C25_normalize_time (T : List K) (hT : T.Pairwise (· < ·)) (hl : 2 ≤ T.length) :
    ∃ t, normalizeTime T = .ok t ∧ t.length = T.length ∧ t[0]? = some 0 ∧ t.Pairwise (· < ·) ∧
      (∀ i x y, t[i]? = some x → t[i + 1]? = some y → 1 ≤ y - x) ∧
      ∃ i x y, t[i]? = some x ∧ t[i + 1]? = some y ∧ y - x = 1 := by
  have hlt : ∀ i (h : i + 1 < T.length), T[i] < T[i + 1] := fun i h =>
    List.pairwise_iff_getElem.1 hT i (i + 1) (by omega) h (by omega)
  have hd : npDiff T ≠ [] := by
    rw [← List.length_pos_iff, npDiff_length]; omega
  obtain ⟨hmem, hmin⟩ := npMin_spec hd
  obtain ⟨k, hk, hkm⟩ := List.getElem_of_mem hmem
  have hk' : k + 1 < T.length := by rw [npDiff_length] at hk; omega
  have hkm' := hkm
  rw [npDiff_getElem] at hkm
  have hpos : 0 < npMin (npDiff T) := by rw [← hkm]; exact sub_pos.2 (hlt k hk')
  have hne : ∀ x ∈ npDiff T, x ≠ 0 := by
    intro x hx
    exact (lt_of_lt_of_le hpos (hmin x hx)).ne'
  have hnorm := normalizeTime_ok T hl hne
  generalize npMin (npDiff T) = d at *
  refine ⟨T.map (fun x => (x - T[0]) / d), hnorm, by simp, ?_, ?_, ?_, ?_⟩
  · rw [List.getElem?_map, List.getElem?_eq_getElem (by omega)]; simp
  · rw [List.pairwise_map]
    refine hT.imp fun {a b} hab => ?_
    rw [div_lt_div_iff_of_pos_right hpos]
    linarith
  · intro i x y hx hy
    rw [List.getElem?_map, Option.map_eq_some_iff] at hx hy
    obtain ⟨a, ha, rfl⟩ := hx
    obtain ⟨b, hb, rfl⟩ := hy
    rw [List.getElem?_eq_some_iff] at ha hb
    obtain ⟨ha, rfl⟩ := ha
    obtain ⟨hb, rfl⟩ := hb
    rw [← sub_div, le_div_iff₀ hpos]
    have := hmin ((npDiff T)[i]'(by rw [npDiff_length]; omega)) (List.getElem_mem _)
    rw [npDiff_getElem] at this
    linarith
  · refine ⟨k, (T[k] - T[0]) / d, (T[k + 1] - T[0]) / d, ?_, ?_, ?_⟩
    · rw [List.getElem?_map, List.getElem?_eq_getElem (by omega)]; rfl
    · rw [List.getElem?_map, List.getElem?_eq_getElem (by omega)]; rfl
    · rw [← sub_div, div_eq_one_iff_eq hpos.ne']
      linarith

/-- C25: `AssertionError` is raised exactly when two neighbouring stamps coincide. -/
theorem C25_assertion_iff (T : List K) :
    normalizeTime T = .error .assertionError ↔ ∃ i x, T[i]? = some x ∧ T[i + 1]? = some x := by
  have key : (npDiff T).all (fun x => !(x == lit 0)) = false ↔ ∃ i x, T[i]? = some x ∧ T[i + 1]? = some x := by
    rw [List.all_eq_false]
    constructor
    · rintro ⟨x, hx, h⟩
      obtain ⟨i, hi, rfl⟩ := List.getElem_of_mem hx
      have hi' : i + 1 < T.length := by rw [npDiff_length] at hi; omega
      rw [npDiff_getElem] at h
      simp only [lit_zero, Bool.not_eq_true, Bool.not_eq_false', beq_iff_eq, sub_eq_zero] at h
      exact ⟨i, T[i], by simp, by rw [List.getElem?_eq_getElem hi', h]⟩
    · rintro ⟨i, x, h1, h2⟩
      rw [List.getElem?_eq_some_iff] at h1 h2
      obtain ⟨h1, rfl⟩ := h1
      obtain ⟨h2, h3⟩ := h2
      refine ⟨(npDiff T)[i]'(by rw [npDiff_length]; omega), List.getElem_mem _, ?_⟩
      rw [npDiff_getElem, h3]
      simp
  unfold normalizeTime
  constructor
  · intro h
    dsimp only at h
    split at h
    · exfalso
      cases h1 : pyGet T 0 with
      | error e =>
        rw [h1] at h
        simp only [bind, Except.bind, Except.error.injEq] at h
        subst h
        unfold pyGet at h1
        split at h1
        · cases h1
        · split at h1 <;> cases h1
      | ok t0 =>
        rw [h1] at h
        simp only [bind, Except.bind, npMinE] at h
        split at h
        next e he => 
          split at he
          · cases he; cases h
          · cases he
        · cases h
    next hn => exact key.1 (by simpa using hn)
  · intro h
    rw [if_neg (by rw [key.2 h]; simp)]

example : ([3, 7, 8, 12] : List ℚ).Pairwise (· < ·) ∧ normalizeTime ([3, 7, 8, 12] : List ℚ) = .ok [0, 4, 5, 9] ∧
    normalizeTime ([3, 7, 7, 12] : List ℚ) = .error .assertionError := by decide +kernel

/-! ## C13 -/

/-- C13: changing the time unit (`c > 0`) and the origin does not change the outcome of a decomposition: rows,
exceptions and stored results agree.  Holds in every detection mode. -/
theorem C13_affine_time (fuel : Nat) (sp : SciPy K) (o : Obj K) (S T : List K) (m : Int) (c d : K) (hc : 0 < c) :
    o.emd fuel sp S (some (T.map (fun x => c * x + d))) m = o.emd fuel sp S (some T) m := by
  have : prepareTime o.cfg S (some (T.map (fun x => c * x + d))) = prepareTime o.cfg S (some T) := by
    simp only [prepareTime, List.length_map, normalizeTime_affine c d hc]
  unfold Obj.emd emdPure emdRounds
  rw [this]

/-- A parabolic decomposition on uneven time stamps. -/
example : okWith (fun r => r.rows.length == 2) (emdPure 20 linSciPy { sampleCfg with detection := .parabol } sampleS
    (some [0, 1, 3, 4, 5, 7, 8, 9, 11, 12]) 1) = true := by decide +kernel

/-! ## C29 -/

/-- What `end_condition` looks at: `S` minus the rows, sample by sample. -/
def restAt (S : List K) (rows : List (List K)) (i : Nat) : K := S.getD i 0 - (rows.map (fun r => r.getD i 0)).sum

/-- C29: for a non-empty signal and rows of its length, `end_condition` is true iff the spread of `S - sum(rows)` is
below `range_thr` (all pairwise differences are) or its L1 norm is below `total_power_thr`. -/
theorem C29_end_condition (cfg : Cfg K) (S : List K) (rows : List (List K)) (hS : S ≠ [])
    (hr : ∀ r ∈ rows, r.length = S.length) :
    ∃ b, endCondition cfg S rows = .ok b ∧ (b = true ↔
      (∀ i < S.length, ∀ j < S.length, restAt S rows i - restAt S rows j < cfg.rangeThr) ∨
      ((List.range S.length).map (fun i => |restAt S rows i|)).sum < cfg.totalPowerThr) := by
  have hlen : (vsub S (sumRows S.length rows)).length = S.length := by
    rw [length_vsub, length_sumRows _ _ hr, Nat.min_self]
  have hget : vsub S (sumRows S.length rows) = (List.range S.length).map (restAt S rows) := by
    apply List.ext_getElem
    · simp [length_sumRows _ _ hr]
    · intro i h1 h2
      have hi : i < S.length := by omega
      apply Option.some_injective
      rw [← List.getElem?_eq_getElem h1, vsub_getElem? _ _ _ _ _ (List.getElem?_eq_getElem hi)
        (sumRows_getElem? _ _ hr i hi), colSum_eq]
      simp [restAt, hi]
  have hne : vsub S (sumRows S.length rows) ≠ [] := by
    rw [← List.length_pos_iff, hlen]; exact List.length_pos_iff.2 hS
  have hemp : (vsub S (sumRows S.length rows)).isEmpty = false := by simpa using hne
  obtain ⟨hmax, hmax'⟩ := npMax_spec hne
  obtain ⟨hmin, hmin'⟩ := npMin_spec hne
  have hrange : npMax (vsub S (sumRows S.length rows)) - npMin (vsub S (sumRows S.length rows)) < cfg.rangeThr ↔
      ∀ i < S.length, ∀ j < S.length, restAt S rows i - restAt S rows j < cfg.rangeThr := by
    constructor
    · intro h i hi j hj
      have h1 := hmax' (restAt S rows i) (by rw [hget]; exact List.mem_map.2 ⟨i, by simpa using hi, rfl⟩)
      have h2 := hmin' (restAt S rows j) (by rw [hget]; exact List.mem_map.2 ⟨j, by simpa using hj, rfl⟩)
      linarith
    · intro h
      rw [hget] at hmax hmin
      obtain ⟨i, hi, hi'⟩ := List.mem_map.1 hmax
      obtain ⟨j, hj, hj'⟩ := List.mem_map.1 hmin
      rw [hget, ← hi', ← hj']
      exact h i (by simpa using hi) j (by simpa using hj)
  have hsum : npSum ((vsub S (sumRows S.length rows)).map pyAbs) =
      ((List.range S.length).map (fun i => |restAt S rows i|)).sum := by
    rw [npSum_eq, hget, List.map_map]
    congr 1
    apply List.map_congr_left
    intro i _
    exact pyAbs_eq _
  unfold endCondition
  simp only [npMaxE, npMinE, hemp, Bool.false_eq_true, if_false, hsum, bind, Except.bind, hrange, pure, Except.pure]
  split
  next h => exact ⟨true, rfl, by simp only [true_iff]; exact .inl h⟩
  next h =>
    split
    next h' => exact ⟨true, rfl, by simp only [true_iff]; exact .inr h'⟩
    next h' => exact ⟨false, rfl, by simp [h']; exact not_forall.1 h |>.elim fun i hi => by push Not at hi; exact ⟨i, hi⟩⟩

/-- C29: larger thresholds never turn a stop into a continuation. -/
theorem C29_monotone (cfg cfg' : Cfg K) (S : List K) (rows : List (List K)) (h1 : cfg.rangeThr ≤ cfg'.rangeThr)
    (h2 : cfg.totalPowerThr ≤ cfg'.totalPowerThr) (h : endCondition cfg S rows = .ok true) :
    endCondition cfg' S rows = .ok true := by
  unfold endCondition at h ⊢
  simp only [bind_eq_ok] at h ⊢
  obtain ⟨mx, hmx, mn, hmn, h⟩ := h
  refine ⟨mx, hmx, mn, hmn, ?_⟩
  split at h
  next hlt => rw [if_pos (lt_of_lt_of_le hlt h1)]; rfl
  next =>
    split at h
    next hlt =>
      split
      · rfl
      · rw [if_pos (lt_of_lt_of_le hlt h2)]; rfl
    · simp [pure, Except.pure] at h

/-- C29, the whole decomposition: it goes on after a round exactly when the end condition is false, the number of
components is not `max_imf`, and the round did find more than two extrema; it stops after the first round where one
of these fails.  (Stated for the generic loop; law-free.) -/
theorem C29_stops_exactly (fuel : Nat) (sp : SciPy K) (cfg : Cfg K) (S : List K) (T : Option (List K)) (mi : Int)
    (rounds : List (Round K)) (e : Int) (h : emdRounds fuel sp cfg S T mi = .ok (rounds, e)) :
    (∀ j, j + 1 < rounds.length → endCondition cfg S ((rounds.take (j + 1)).map (·.imf)) = .ok false ∧
      ((j + 1 : Nat) : Int) ≠ mi) ∧
    (endCondition cfg S (rounds.map (·.imf)) = .ok true ∨ (rounds.length : Int) = mi ∨
      ∃ T' r, prepareTime cfg S T = .ok T' ∧ rounds.getLast? = some r ∧ FewExtrema cfg T' r.imf) := by
  obtain ⟨T', hT, hp⟩ := emdRounds_post h
  refine ⟨fun j hj => ⟨(hp.goesOn j hj).1, (hp.goesOn j hj).2.1⟩, ?_⟩
  rcases hp.stops with h | h | ⟨r, hr, ht⟩
  · exact .inl h
  · exact .inr (.inl h)
  · refine .inr (.inr ⟨T', r, hT, hr, ?_⟩)
    have hpos := List.length_pos_iff.2 hp.ne
    rw [List.getLast?_eq_getElem?] at hr
    obtain ⟨e', ⟨s, seq, r', h1, h2, h3, h4, h5⟩, -⟩ := hp.ok (rounds.length - 1) (by omega)
    rw [hr] at h1
    cases h1
    rw [h3]
    exact (h2.trend ht).2

/-- One instance of each answer. -/
example : endCondition (Cfg.default : Cfg ℚ) [1, 2] [[1, 1]] = .ok false ∧
    endCondition (Cfg.default : Cfg ℚ) [7, 7] [] = .ok true ∧
    endCondition { (Cfg.default : Cfg ℚ) with rangeThr := 0 } [1 / 1000, 2 / 1000] [] = .ok true ∧
    okWith (fun p => p.1.length == 3) (emdRounds 20 linSciPy sampleCfg sampleS none (-1)) = true := by decide +kernel

/-! ## C30 -/

/-- Sum of squares. -/
def energy (x : List K) : K := (x.map (fun a => a ^ 2)).sum

/-- Sum of squared differences. -/
def energyDiff (x y : List K) : K := ((List.zip x y).map (fun p => (p.1 - p.2) ^ 2)).sum

/-- The three convergence tests of Huang's criterion, in division-free form where the divisor is a scalar. -/
def Converged (cfg : Cfg K) (new old : List K) : Prop :=
  (∃ hi ∈ old, ∃ lo ∈ old, (∀ x ∈ old, lo ≤ x ∧ x ≤ hi) ∧ lo < hi ∧ energyDiff new old < cfg.svarThr * (hi - lo)) ∨
  ((∀ x ∈ new, x ≠ 0) ∧ ((List.zip new old).map (fun p => ((p.1 - p.2) / p.1) ^ 2)).sum < cfg.stdThr) ∨
  (0 < energy old ∧ energyDiff new old < cfg.energyRatioThr * energy old)

theorem vsub_sq_sum (a b : List K) : npSum ((vsub a b).map (fun x => x * x)) = energyDiff a b := by
  rw [npSum_eq, energyDiff, vsub, ← List.map_uncurry_zip_eq_zipWith, List.map_map]
  congr 1
  apply List.map_congr_left
  intro p _
  simp [Function.uncurry, pow_two]

theorem sq_sum (a : List K) : npSum (a.map (fun x => x * x)) = energy a := by
  simp [npSum_eq, energy, pow_two]

theorem ratio_sq_sum (a b : List K) :
    npSum ((List.zipWith (fun x y => x / y) (vsub a b) a).map (fun x => x * x)) =
      ((List.zip a b).map (fun p => ((p.1 - p.2) / p.1) ^ 2)).sum := by
  rw [npSum_eq]
  congr 1
  induction a generalizing b with
  | nil => simp [vsub]
  | cons x a ih => cases b with
    | nil => simp [vsub]
    | cons y b => simp only [vsub] at ih; simp [vsub, ih, pow_two]

theorem energy_nonneg (x : List K) : 0 ≤ energy x := by
  apply List.sum_nonneg
  intro a ha
  obtain ⟨b, -, rfl⟩ := List.mem_map.1 ha
  positivity

theorem divLt_iff (num den thr : K) (h : 0 ≤ den) : divLt num den thr = true ↔ 0 < den ∧ num < thr * den := by
  unfold divLt
  rw [lit_zero]
  rcases h.eq_or_lt with h | h
  · simp [← h]
  · simp [h, h.ne', div_lt_iff₀ h]

/-- C30: for components of equal positive length, `check_imf` accepts iff all envelope maxima are ≥ 0, all envelope minima
are ≤ 0, the energy is at least `1e-10`, and one of the three convergence tests is met. -/
theorem C30_check_imf (cfg : Cfg K) (new old : List K) (eMax eMin : List (K × K)) (_hl : new.length = old.length)
    (hne : old ≠ []) :
    ∃ b, checkImf cfg new old eMax eMin = .ok b ∧ (b = true ↔
      (∀ p ∈ eMax, 0 ≤ p.2) ∧ (∀ p ∈ eMin, p.2 ≤ 0) ∧ 1 / 10000000000 ≤ energy new ∧ Converged cfg new old) := by
  obtain ⟨hmax, hmax'⟩ := npMax_spec hne
  obtain ⟨hmin, hmin'⟩ := npMin_spec hne
  have hle : npMin old ≤ npMax old := hmin' _ hmax
  have h1 : divLt (energyDiff new old) (npMax old - npMin old) cfg.svarThr = true ↔
      ∃ hi ∈ old, ∃ lo ∈ old, (∀ x ∈ old, lo ≤ x ∧ x ≤ hi) ∧ lo < hi ∧ energyDiff new old < cfg.svarThr * (hi - lo) := by
    rw [divLt_iff _ _ _ (sub_nonneg.2 hle), sub_pos]
    constructor
    · exact fun h => ⟨_, hmax, _, hmin, fun x hx => ⟨hmin' x hx, hmax' x hx⟩, h⟩
    · rintro ⟨hi, hhi, lo, hlo, hb, h⟩
      have e1 : hi = npMax old := le_antisymm (hmax' _ hhi) (hb _ hmax).2
      have e2 : lo = npMin old := le_antisymm (hb _ hmin).1 (hmin' _ hlo)
      rwa [← e1, ← e2]
  have h2 : ((!new.any (fun x => x == lit 0)) && decide (((List.zip new old).map (fun p => ((p.1 - p.2) / p.1) ^ 2)).sum
      < cfg.stdThr)) = true ↔ (∀ x ∈ new, x ≠ 0) ∧
        ((List.zip new old).map (fun p => ((p.1 - p.2) / p.1) ^ 2)).sum < cfg.stdThr := by
    rw [Bool.and_eq_true, decide_eq_true_eq, lit_zero, Bool.not_eq_true', List.any_eq_false]
    simp only [beq_iff_eq]
  have h3 := divLt_iff (energyDiff new old) (energy old) cfg.energyRatioThr (energy_nonneg old)
  have h4 : (eMax.any (fun p => decide (p.2 < lit 0)) || eMin.any (fun p => decide (lit 0 < p.2))) = false ↔
      (∀ p ∈ eMax, 0 ≤ p.2) ∧ (∀ p ∈ eMin, p.2 ≤ 0) := by
    rw [Bool.or_eq_false_iff, List.any_eq_false, List.any_eq_false, lit_zero]
    simp only [decide_eq_true_eq, not_lt]
  have hlit : (lit (1 / 10000000000) : K) = 1 / 10000000000 := by simp [lit_eq]
  unfold checkImf Converged
  rw [← h1, ← h2, ← h3, ← and_assoc, ← h4]
  simp only [vsub_sq_sum, ratio_sq_sum]
  simp only [sq_sum, pyMax_eq hne, pyMin_eq hne, hlit, bind, Except.bind]
  generalize (eMax.any (fun p => decide (p.2 < lit 0)) || eMin.any (fun p => decide (lit 0 < p.2))) = c1
  generalize divLt (energyDiff new old) (npMax old - npMin old) cfg.svarThr = c2
  generalize ((!new.any (fun x => x == lit 0)) && decide (((List.zip new old).map (fun p => ((p.1 - p.2) / p.1) ^ 2)).sum
      < cfg.stdThr)) = c3
  generalize divLt (energyDiff new old) (energy old) cfg.energyRatioThr = c4
  generalize (1 / 10000000000 : K) = eps
  by_cases he : energy new < eps
  · cases c1 <;> cases c2 <;> cases c3 <;> cases c4 <;>
      exact ⟨_, by simp only [he, if_true]; rfl, by simp [he]⟩
  · cases c1 <;> cases c2 <;> cases c3 <;> cases c4 <;>
      exact ⟨_, by simp only [he, if_false]; rfl, by simp [not_lt.1 he]⟩

/-- C60 in terms of C30: a component reported in default mode before `MAX_ITERATION` came from a proto-component none of
whose upper envelope knots is negative and none of whose lower envelope knots is positive, it has energy at least `1e-10`
and meets one of the convergence tests. -/
theorem C60_default_mode (fuel : Nat) (sp : SciPy K) (cfg : Cfg K) (S : List K) (T : Option (List K)) (mi : Int)
    (R : Result K) (hF : cfg.FIXE = 0) (hH : cfg.FIXE_H = 0) (hS : S ≠ []) (h : emdPure fuel sp cfg S T mi = .ok R) :
    ∃ T', prepareTime cfg S T = .ok T' ∧ ∀ j c, R.imfs[j]? = some c →
      ∃ x seq m, IsResidue S (R.imfs.take j) x ∧ SiftPath sp cfg T' m x c seq ∧
        (cfg.MAX_ITERATION ≤ (m : Int) + 1 ∨
         ∃ old rest e kmax kmin, seq = c :: old :: rest ∧ findExtrema cfg.detection T' old = .ok e ∧
          preparePoints cfg.detection cfg.nbsym T' old e = .ok (kmax, kmin) ∧ (∀ p ∈ kmax, 0 ≤ p.2) ∧ (∀ p ∈ kmin, p.2 ≤ 0) ∧
          1 / 10000000000 ≤ energy c ∧ Converged cfg c old) := by
  have hl := emdPure_imfs_length h
  obtain ⟨T', hT, hs⟩ := C60_accepted_by_check fuel sp cfg S T mi R hF hH h
  refine ⟨T', hT, fun j c hc => ?_⟩
  obtain ⟨x, seq, m, h1, h2, h3⟩ := hs j c hc
  refine ⟨x, seq, m, h1, h2, h3.imp_right ?_⟩
  rintro ⟨old, rest, e, kmax, kmin, hseq, he, hk, hchk⟩
  have hlen : c.length = old.length := by
    obtain ⟨hq, -⟩ := h2
    rw [hseq] at hq
    cases hq with
    | step _ hsub =>
      obtain ⟨_, -, hlen, -⟩ := hsub
      exact hlen
  have hc0 : c.length = S.length := hl c (List.mem_of_getElem? hc)
  have hne : old ≠ [] := by
    rintro rfl
    rw [hlen] at hc0
    exact hS (List.eq_nil_of_length_eq_zero hc0.symm)
  obtain ⟨b, hb, hiff⟩ := C30_check_imf cfg c old kmax kmin hlen hne
  rw [hchk] at hb
  cases hb
  exact ⟨old, rest, e, kmax, kmin, hseq, he, hk, hiff.1 rfl⟩

example : okWith (fun R => R.imfs.length == 2) (emdPure 20 linSciPy sampleCfg sampleS none (-1)) = true ∧
    sampleCfg.FIXE = 0 ∧ sampleCfg.FIXE_H = 0 ∧ sampleS ≠ [] := by decide +kernel

/-- C30: raising the thresholds never turns acceptance into rejection. -/
theorem C30_monotone (cfg cfg' : Cfg K) (new old : List K) (eMax eMin : List (K × K)) (_hl : new.length = old.length)
    (hne : old ≠ [])
    (h1 : cfg.svarThr ≤ cfg'.svarThr) (h2 : cfg.stdThr ≤ cfg'.stdThr) (h3 : cfg.energyRatioThr ≤ cfg'.energyRatioThr)
    (h : checkImf cfg new old eMax eMin = .ok true) : checkImf cfg' new old eMax eMin = .ok true := by
  obtain ⟨b, hb, hb'⟩ := C30_check_imf cfg new old eMax eMin _hl hne
  obtain ⟨c, hc, hc'⟩ := C30_check_imf cfg' new old eMax eMin _hl hne
  rw [h] at hb
  cases hb
  obtain ⟨a1, a2, a3, a4⟩ := hb'.1 rfl
  rw [hc, hc'.2 ⟨a1, a2, a3, ?_⟩]
  rcases a4 with ⟨hi, hhi, lo, hlo, hx, hlt, hd⟩ | ⟨hz, hd⟩ | ⟨hp, hd⟩
  · exact .inl ⟨hi, hhi, lo, hlo, hx, hlt, hd.trans_le (mul_le_mul_of_nonneg_right h1 (sub_pos.2 hlt).le)⟩
  · exact .inr (.inl ⟨hz, hd.trans_le h2⟩)
  · exact .inr (.inr ⟨hp, hd.trans_le (mul_le_mul_of_nonneg_right h3 hp.le)⟩)

/-- Both answers occur, and each single test can be the one that accepts. -/
example :
    checkImf (Cfg.default : Cfg ℚ) [1, -1] [2, -2] [(0, 2)] [(1, -2)] = .ok false ∧
    checkImf (Cfg.default : Cfg ℚ) [1, -1] [1, -1] [(0, 1)] [(1, -1)] = .ok true ∧
    checkImf (Cfg.default : Cfg ℚ) [1, -1] [1, -1] [(0, -1)] [(1, -1)] = .ok false ∧
    checkImf (Cfg.default : Cfg ℚ) [10, 0] [9, 0] [] [] = .ok true ∧
    checkImf { (Cfg.default : Cfg ℚ) with energyRatioThr := 0 } [10, 1] [9, 1] [] [] = .ok true ∧
    checkImf (Cfg.default : Cfg ℚ) [0, 0] [0, 0] [] [] = .ok false := by decide +kernel

end EMD
end PyEMD
