import Verif.Lemmas.Matlab
import Verif.Spec.Samples
import Mathlib.Data.Rat.Floor

/-!
# `EMD_matlab`: sums, limits, detection and stopping (C54, C55, C67, C68, C70, C71, C72)
-/

set_option linter.unusedSectionVars false

namespace PyEMD
namespace Matlab
open EMD (Extrema SplineKind)
open EMD.Spec

/-- Few iterations, for the examples. -/
def sampleCfg : Cfg ℚ := { Cfg.default with MAX_ITERATION := 4 }

/-! ## C55 -/

section LawFree
variable {α : Type} [Add α] [Sub α] [Mul α] [Div α] [Neg α] [LT α] [LE α] [BEq α]
  [DecidableLT α] [DecidableLE α] [NpScalar α]

theorem emdRound_imfNo {sp : SciPy α} {cfg : Cfg α} {T : List α} {n : Nat} {mi : Int} {st st' : State α} {fin : Bool}
    (h : emdRound sp cfg T n mi st = .ok (st', fin)) :
    st'.imfNo = st.imfNo + 1 ∧ (((st'.imfNo : Int) = mi - 1) → fin = true) := by
  unfold emdRound at h
  split at h
  · cases h
  · simp only [bind_eq_ok, pure_eq_ok] at h
    obtain ⟨⟨s, why⟩, -, h⟩ := h
    obtain ⟨rfl, rfl⟩ := Prod.mk.inj h
    refine ⟨rfl, fun h => ?_⟩
    simp only at h
    simp [h]

theorem emdLoop_imfNo {sp : SciPy α} {cfg : Cfg α} {T : List α} {n : Nat} {mi : Int} {fuel : Nat} {st st' : State α}
    (h : emdLoop sp cfg T n mi fuel st = .ok st') (hlt : (st.imfNo : Int) < mi - 1) : (st'.imfNo : Int) ≤ mi - 1 := by
  induction fuel generalizing st with
  | zero => cases h
  | succ fuel ih =>
    unfold emdLoop at h
    simp only [bind_eq_ok] at h
    obtain ⟨⟨st1, fin⟩, h1, h⟩ := h
    obtain ⟨e1, e2⟩ := emdRound_imfNo h1
    simp only at h
    split at h
    · rw [pure_eq_ok] at h
      subst h
      omega
    · next hf =>
      refine ih h ?_
      by_contra hc
      exact hf (e2 (by omega))

/-- **C55**, what holds of it: `emd(S, T, maxImf=k)` with `k ≥ 2` returns at most `k` components, residue included; for any scalar
operations.  Missing: `k = 1`, which is unlimited, see `C55_counterexample`. -/
theorem C55_partial {sp : SciPy α} {cfg : Cfg α} {S : List α} {T : Option (List α)} {mi : Int} {fuel : Nat} {R : Result α}
    (hk : 2 ≤ mi) (h : emd fuel sp cfg S T mi = .ok R) : (R.imfNo : Int) ≤ mi := by
  unfold emd at h
  simp only at h
  split at h
  · cases h
  · simp only [bind_eq_ok] at h
    obtain ⟨st, hst, h⟩ := h
    have := emdLoop_imfNo hst (by simp only; omega)
    unfold finish at h
    simp only [bind_eq_ok] at h
    obtain ⟨rows, -, h⟩ := h
    split at h
    · rw [pure_eq_ok] at h
      subst h
      simp only
      split
      · push_cast
        omega
      · omega
    · cases h

end LawFree

example : okWith (fun R => R.imfNo == 2) (emd 20 linSciPy sampleCfg EMD.sampleS none 2) = true := by decide +kernel

/-- **C55 is false for `maxImf = 1`**: three components. -/
theorem C55_counterexample : ∃ R, emd 20 linSciPy sampleCfg EMD.sampleS none 1 = .ok R ∧ R.imfNo = 3 := by
  have : okWith (fun R => R.imfNo == 3) (emd 20 linSciPy sampleCfg EMD.sampleS none 1) = true := by decide +kernel
  obtain ⟨R, h, h'⟩ := okWith_iff.1 this
  exact ⟨R, h, by simpa using h'⟩

section Exact
variable {K : Type} [Field K] [LinearOrder K] [IsStrictOrderedRing K] [FloorRing K]

/-! ## C54 -/

/-- Absolute difference between the signal and the sum of the rows, summed over the samples. -/
def l1Diff (S : List K) (rows : List (List K)) : K := ((List.range S.length).map (fun i => |S.getD i 0 - colSum rows i|)).sum

theorem residue_map {S r : List K} {rows : List (List K)} (h : IsResidue S rows r) :
    r.map (fun v => |v|) = (List.range S.length).map (fun i => |S.getD i 0 - colSum rows i|) := by
  apply List.ext_getElem
  · simp [h.1]
  · intro i h1 h2
    have hi : i < S.length := by simpa using h2
    obtain ⟨s, hs, hr⟩ := h.2 i hi
    obtain ⟨hlt, hr'⟩ := List.getElem?_eq_some_iff.1 hr
    simp only [List.getElem_map, hr', List.getElem_range]
    rw [List.getD_eq_getElem?_getD, hs]
    rfl

/-- **C54.**  The components are numbered `0, ..., imfNo - 1`, as are the entries of `EXT` and `ITER`; they have the length of the
signal; if a residue was appended (there is one more component than rounds of the outer loop) they add up to the signal exactly,
and otherwise up to `1e-10` in total. -/
theorem C54_sum {sp : SciPy K} {cfg : Cfg K} {S : List K} {T : Option (List K)} {mi : Int} {fuel : Nat} {R : Result K}
    (h : emd fuel sp cfg S T mi = .ok R) :
    R.IMF.map (·.1) = List.range R.imfNo ∧ R.EXT.map (·.1) = List.range R.imfNo ∧ R.ITER.map (·.1) = List.range R.imfNo ∧
    (∀ r ∈ R.IMF.map (·.2), r.length = S.length) ∧
    ((R.imfNo = R.ends.length + 1 ∧ ∀ i s, S[i]? = some s → colSum (R.IMF.map (·.2)) i = s) ∨
      (R.imfNo = R.ends.length ∧ l1Diff S (R.IMF.map (·.2)) ≤ 1 / 10000000000)) := by
  obtain ⟨recs, r, res, more, ok⟩ := emd_ok h
  refine ⟨ok.keys, ok.keysE, ok.keysI, ?_, ?_⟩
  · intro y hy
    rw [ok.rows] at hy
    rcases List.mem_append.1 hy with h | h
    · obtain ⟨q, hq, rfl⟩ := List.mem_map.1 h
      exact ok.len q hq
    · cases more
      · simp at h
      · simp only [if_true, List.mem_singleton] at h
        rw [h]
        exact ok.isRes.1
  · have hn : R.ends.length = recs.length + 1 := by simp [ok.ends]
    cases hm : more
    · right
      refine ⟨by rw [ok.imfNo, hn, hm]; rfl, ?_⟩
      rw [ok.rows, hm]
      simp only [Bool.false_eq_true, if_false, List.append_nil]
      unfold l1Diff
      rw [← residue_map ok.isRes]
      have := ok.isMore
      rw [hm] at this
      simpa using this
    · left
      refine ⟨by rw [ok.imfNo, hn, hm]; rfl, ?_⟩
      intro i s hs
      rw [ok.rows, hm]
      simp only [if_true]
      rw [colSum_concat]
      have hi : i < S.length := (List.getElem?_eq_some_iff.1 hs).1
      obtain ⟨s', hs', hr⟩ := ok.isRes.2 i hi
      obtain rfl : s = s' := Option.some.inj (hs.symm.trans hs')
      rw [List.getD_eq_getElem?_getD, hr]
      simp

example : okWith (fun R => R.imfNo == 3 && R.ends.length == 2) (emd 20 linSciPy sampleCfg EMD.sampleS none 3) = true ∧
    okWith (fun R => R.imfNo == 3 && R.ends.length == 3) (emd 20 linSciPy sampleCfg EMD.sampleS none (-1)) = true := by
  constructor <;> decide +kernel

/-! ## C71 -/

/-- **C71.**  Without a limit (`maxImf` absent, or at most 1), `emd` stops at a trend: the last component has at most two extrema,
nothing was sifted from it, no residue is appended and the components add up to the signal exactly. -/
theorem C71_trend {sp : SciPy K} {cfg : Cfg K} {S : List K} {T : Option (List K)} {mi : Int} {fuel : Nat} {R : Result K}
    (hmi : mi ≤ 1) (h : emd fuel sp cfg S T mi = .ok R) :
    ∃ rows trend, R.IMF.map (·.2) = rows ++ [trend] ∧ IsResidue S rows trend ∧
      (∃ E, findExtrema (timeOf S T) trend = .ok E ∧ E.maxPos.length + E.minPos.length ≤ 2) ∧
      R.EXT.getLast?.map (·.2) ≤ some 2 ∧ R.imfNo = R.ends.length ∧
      ∀ i s, S[i]? = some s → colSum (R.IMF.map (·.2)) i = s := by
  obtain ⟨recs, r, res, more, ok⟩ := emd_ok h
  have hw : r.why = .trend := by
    rcases ok.last with h | h
    · exact h
    · omega
  obtain ⟨-, himf, E, hE, he, he2⟩ := (ok.recsOk.post r (by simp)).trend hw
  have hx : IsResidue S (recs.map (·.s.imf)) r.s.imf := by
    have := ok.recsOk.start recs.length r (by simp)
    rw [himf]
    simpa using this
  have hzero : ∀ v ∈ res, v = 0 := by
    intro v hv
    obtain ⟨i, hi, rfl⟩ := List.getElem_of_mem hv
    have hi' : i < S.length := by rw [← ok.isRes.1]; exact hi
    obtain ⟨s, hs, hr⟩ := ok.isRes.2 i hi'
    obtain ⟨s', hs', hx'⟩ := hx.2 i hi'
    obtain rfl : s = s' := Option.some.inj (hs.symm.trans hs')
    rw [List.getElem?_eq_getElem hi, Option.some.injEq] at hr
    rw [hr, List.map_append]
    simp only [List.map_cons, List.map_nil]
    rw [colSum_concat, List.getD_eq_getElem?_getD, hx']
    simp
  have hm : more = false := by
    rw [← Bool.not_eq_true, ok.isMore]
    have : (res.map (fun v => |v|)).sum = 0 := by
      apply List.sum_eq_zero
      intro w hw
      obtain ⟨v, hv, rfl⟩ := List.mem_map.1 hw
      rw [hzero v hv, abs_zero]
    rw [this]
    norm_num
  subst hm
  have hrows : R.IMF.map (·.2) = recs.map (·.s.imf) ++ [r.s.imf] := by simpa using ok.rows
  refine ⟨recs.map (·.s.imf), r.s.imf, hrows, hx, ⟨E, by rw [himf]; exact hE, by omega⟩, ?_, ?_, ?_⟩
  · have := congrArg List.getLast? ok.exts
    simp only [Bool.false_eq_true, if_false, List.append_nil, List.map_append, List.map_cons, List.map_nil, List.getLast?_concat,
      List.getLast?_map] at this
    rw [this]
    exact Option.some_le_some.2 he2
  · rw [ok.imfNo, ok.ends]
    simp
  · intro i s hs
    have hi : i < S.length := (List.getElem?_eq_some_iff.1 hs).1
    obtain ⟨s', hs', hx'⟩ := hx.2 i hi
    obtain rfl : s = s' := Option.some.inj (hs.symm.trans hs')
    rw [hrows, colSum_concat, List.getD_eq_getElem?_getD, hx']
    simp

example : okWith (fun R => R.ends == [.converged, .converged, .trend]) (emd 20 linSciPy sampleCfg EMD.sampleS none (-1)) = true := by
  decide +kernel

/-! ## C67 -/

/-- **C67**, what holds of it: the detector returns exactly what the reference detector returns (extrema and zero crossings), or
raises the same exception, for every time array and every signal that does not both start and end flat.  Missing: signals whose first
two samples are equal and whose last two samples are equal, see `C67_counterexample`. -/
theorem C67_partial (T S : List K) (h : ∀ a b c e, S[0]? = some a → S[1]? = some b → S[S.length - 2]? = some c →
    S[S.length - 1]? = some e → a = b → c ≠ e) : findExtrema T S = EMD.findExtrema .simple T S := by
  unfold findExtrema
  rw [extremaIdx_eq S h]
  rfl

/-- Plateaus inside and a flat start. -/
example : findExtrema [0, 1, 2, 3, 4, 5, 6, (7 : ℚ)] [1, 1, 3, 3, 0, 0, 2, (1 : ℚ)] =
    EMD.findExtrema .simple [0, 1, 2, 3, 4, 5, 6, (7 : ℚ)] [1, 1, 3, 3, 0, 0, 2, (1 : ℚ)] := by
  apply C67_partial
  rintro a b c e ⟨⟩ ⟨⟩ ⟨⟩ ⟨⟩ -
  norm_num

example : okWith (fun E => E.maxPos == [2, (6 : ℚ)] && E.minPos == [0, (4 : ℚ)])
    (findExtrema [0, 1, 2, 3, 4, 5, 6, (7 : ℚ)] [1, 1, 3, 3, 0, 0, 2, (1 : ℚ)]) = true := by decide +kernel

/-- **C67 is false without the hypothesis**: on `1, 1, 2, 1, 1` a minimum is reported at the first sample, where the reference
reports none. -/
theorem C67_counterexample :
    ∃ E E', findExtrema [0, 1, 2, 3, (4 : ℚ)] [1, 1, 2, 1, (1 : ℚ)] = .ok E ∧
      EMD.findExtrema .simple [0, 1, 2, 3, (4 : ℚ)] [1, 1, 2, 1, (1 : ℚ)] = .ok E' ∧ E.minPos = [0] ∧ E'.minPos = [] := by
  have h1 : okWith (fun E => E.minPos == [(0 : ℚ)]) (findExtrema [0, 1, 2, 3, (4 : ℚ)] [1, 1, 2, 1, (1 : ℚ)]) = true := by
    decide +kernel
  have h2 : okWith (fun E => E.minPos == []) (EMD.findExtrema .simple [0, 1, 2, 3, (4 : ℚ)] [1, 1, 2, 1, (1 : ℚ)]) = true := by
    decide +kernel
  obtain ⟨E, e1, e2⟩ := okWith_iff.1 h1
  obtain ⟨E', e1', e2'⟩ := okWith_iff.1 h2
  exact ⟨E, E', e1, e1', by simpa using e2, by simpa using e2'⟩

/-! ## C68 -/

/-- Number of extrema at most two. -/
def FewExtrema (T x : List K) : Prop := ∃ E, findExtrema T x = .ok E ∧ E.maxPos.length + E.minPos.length ≤ 2

/-- The rounds of `emd`: for each, what remained of the signal and how the component was found. -/
theorem rounds {sp : SciPy K} {cfg : Cfg K} {S : List K} {T : Option (List K)} {mi : Int} {fuel : Nat} {R : Result K}
    (h : emd fuel sp cfg S T mi = .ok R) (i : Nat) (hi : i < R.ends.length) :
    ∃ (x : List K) (s : Sift K) (why : SiftEnd), IsResidue S ((R.IMF.map (·.2)).take i) x ∧ (R.IMF.map (·.2))[i]? = some s.imf ∧
      (R.EXT.map (·.2))[i]? = some s.extNo ∧ (R.ITER.map (·.2))[i]? = some s.n ∧ R.ends[i]? = some why ∧
      SiftPost sp cfg (timeOf S T) x s why := by
  obtain ⟨recs, r, res, more, ok⟩ := emd_ok h
  have hn : R.ends.length = (recs ++ [r]).length := by simp [ok.ends]
  rw [hn] at hi
  obtain ⟨q, hq⟩ : ∃ q, (recs ++ [r])[i]? = some q := ⟨_, List.getElem?_eq_getElem hi⟩
  refine ⟨q.x, q.s, q.why, ?_, ?_, ?_, ?_, ?_, ok.recsOk.post q (List.mem_of_getElem? hq)⟩
  · have := ok.recsOk.start i q hq
    rw [ok.rows, List.take_append_of_le_length (by rw [List.length_map]; exact hi.le), ← List.map_take]
    exact this
  · rw [ok.rows, List.getElem?_append_left (by rw [List.length_map]; exact hi), List.getElem?_map, hq]
    rfl
  · rw [ok.exts, List.getElem?_append_left (by rw [List.length_map]; exact hi), List.getElem?_map, hq]
    rfl
  · rw [ok.iters, List.getElem?_append_left (by rw [List.length_map]; exact hi), List.getElem?_map, hq]
    rfl
  · rw [ok.ends, List.getElem?_map, hq]
    rfl

/-- **C68.**  With `FIXE = k ≥ 1` (and both iteration limits above `k`), every component found by the outer loop comes from what remained
of the signal by exactly `k` siftings, or by fewer if at most two extrema were left. -/
theorem C68_fixe {sp : SciPy K} {cfg : Cfg K} {S : List K} {T : Option (List K)} {mi : Int} {fuel : Nat} {R : Result K} (k : Nat)
    (hk : 1 ≤ k) (hF : cfg.FIXE = k) (h1 : (k : Int) + 1 ≤ cfg.MAX_ITERATION) (h2 : (k : Int) + 1 ≤ cfg.maxIteration)
    (h : emd fuel sp cfg S T mi = .ok R) (i : Nat) (hi : i < R.ends.length) :
    ∃ x row j, IsResidue S ((R.IMF.map (·.2)).take i) x ∧ (R.IMF.map (·.2))[i]? = some row ∧
      Sifted sp cfg (timeOf S T) x j row ∧ j ≤ k ∧ (j = k ∨ FewExtrema (timeOf S T) row) := by
  obtain ⟨x, s, why, hx, hrow, -, -, -, hp⟩ := rounds h i hi
  have hb := hp.fixeBound (by omega)
  by_cases ht : why = .trend
  · obtain ⟨hn, himf, E, hE, he, he2⟩ := hp.trend ht
    exact ⟨x, s.imf, 0, hx, hrow, by rw [himf]; exact .zero, by omega, .inr ⟨E, by rw [himf]; exact hE, by omega⟩⟩
  · obtain ⟨g1, g2, g3, g4⟩ := hp.other ht (by omega)
    refine ⟨x, s.imf, _, hx, hrow, g4, by omega, ?_⟩
    cases why with
    | trend => exact absurd rfl ht
    | lost => exact .inr (hp.lost rfl)
    | limit =>
      have := hp.limit rfl (by omega)
      left; omega
    | tooMany =>
      have := hp.tooMany rfl (by omega)
      omega
    | fixe =>
      have := (hp.fixe rfl).2 (by omega)
      left; omega
    | fixeH =>
      have := (hp.fixeH rfl).1
      omega
    | converged =>
      have := (hp.converged rfl).1
      omega

/-- Two siftings per component; the hypotheses of C68 hold with `k = 2`. -/
example : okWith (fun R => R.ends == [.fixe, .fixe] && R.ITER == [(0, 3), (1, 3), (2, 0)])
      (emd 20 linSciPy { sampleCfg with FIXE := 2 } EMD.sampleS none 3) = true ∧
    ((2 : Nat) : Int) + 1 ≤ ({ sampleCfg with FIXE := 2 } : Cfg ℚ).MAX_ITERATION ∧
    ((2 : Nat) : Int) + 1 ≤ ({ sampleCfg with FIXE := 2 } : Cfg ℚ).maxIteration := by
  refine ⟨by decide +kernel, by decide, by decide⟩

/-! ## C70 -/

theorem divGt_abs (m a stop : K) (ha : 0 ≤ a) (hs : 0 ≤ stop) (hm : 0 ≤ m) : divGt m a stop = decide (stop * a < m) := by
  unfold divGt
  rw [lit_zero]
  by_cases h : a = 0
  · subst h
    simp
  · have hpos : 0 < a := lt_of_le_of_ne ha (Ne.symm h)
    rw [if_neg (by simpa using h)]
    rw [decide_eq_decide, lt_div_iff₀ hpos]

/-- Rilling's criterion on the two envelopes of a component: the mean of the envelopes nowhere exceeds `stop2` times their half distance,
and exceeds `stop1` times their half distance at a fraction of at most `stop3` of the samples. -/
def Rilling (cfg : Cfg K) (up lo : List K) : Prop :=
  (∀ p ∈ up.zip lo, |(p.1 + p.2) / 2| ≤ cfg.stop2 * (|p.1 - p.2| / 2)) ∧
    (((up.zip lo).filter (fun p => decide (cfg.stop1 * (|p.1 - p.2| / 2) < |(p.1 + p.2) / 2|))).length : K) ≤
      cfg.stop3 * ((up.zip lo).length : K)

theorem stopSifting_true {cfg : Cfg K} (h1 : 0 ≤ cfg.stop1) (h2 : 0 ≤ cfg.stop2) {up lo sum : List K} {e : Int}
    (hl : up.length = lo.length) (hs : bcast (fun a b => a + b) up lo = .ok sum)
    (h : stopSifting cfg up lo (sum.map (fun v => 1 / 2 * v)) e = .ok true) : Rilling cfg up lo ∧ 2 < e := by
  unfold bcast at hs
  rw [if_pos hl] at hs
  obtain rfl := Except.ok.inj hs
  unfold stopSifting bcast at h
  rw [if_pos hl] at h
  have hover : ∀ stop, 0 ≤ stop → List.zipWith (fun m a => divGt (pyAbs m) a stop)
      ((List.zipWith (fun a b => a + b) up lo).map (fun v => 1 / 2 * v))
      ((List.zipWith (fun a b => a - b) up lo).map (fun x => pyAbs x / lit 2)) =
      (up.zip lo).map (fun p => decide (stop * (|p.1 - p.2| / 2) < |(p.1 + p.2) / 2|)) := by
    intro stop hstop
    clear h hs hl
    induction up generalizing lo with
    | nil => simp
    | cons u up ih =>
      cases lo with
      | nil => simp
      | cons l lo =>
        simp only [List.zipWith_cons_cons, List.map_cons, List.zip_cons_cons]
        rw [ih, pyAbs_eq, pyAbs_eq, lit_two, divGt_abs _ _ _ (by positivity) hstop (abs_nonneg _)]
        rw [show 1 / 2 * (u + l) = (u + l) / 2 by ring]
  simp only [bind, Except.bind, pure, Except.pure, Except.ok.injEq] at h
  rw [hover _ h1, hover _ h2] at h
  simp only [Bool.and_eq_true, Bool.not_eq_true', Bool.or_eq_false_iff, decide_eq_true_eq] at h
  obtain ⟨⟨f1, f2⟩, f3⟩ := h
  refine ⟨⟨?_, ?_⟩, f3⟩
  · intro p hp
    rw [List.any_eq_false] at f2
    have := f2 _ (List.mem_map_of_mem hp)
    simpa using this
  · rw [List.length_map, List.filter_map, List.length_map] at f1
    simp only [Function.comp_def, id] at f1
    generalize ((up.zip lo).filter (fun p => decide (cfg.stop1 * (|p.1 - p.2| / 2) < |(p.1 + p.2) / 2|))).length = c at f1 ⊢
    generalize (up.zip lo).length = m at f1 ⊢
    unfold divGt at f1
    rw [lit_nat, lit_nat, lit_zero] at f1
    by_cases hm : m = 0
    · subst hm
      simp at f1
      simp [f1]
    · have hpos : (0 : K) < m := by exact_mod_cast Nat.pos_of_ne_zero hm
      rw [if_neg (by simpa using hm)] at f1
      simp only [decide_eq_false_iff_not, not_lt] at f1
      rwa [div_le_iff₀ hpos] at f1

/-- **C70.**  Default stopping rule (`FIXE = FIXE_H = 0`): every component takes at most `MAX_ITERATION` and at most `maxIteration + 1`
iterations, and unless it used up one of the two limits, it has at most two extrema or meets the rule: more than two extrema, numbers of
extrema and of zero crossings that differ by at most one, and envelopes that satisfy Rilling's criterion.  (`up.length = lo.length`
holds when the interpolator returns one value per sample.) -/
theorem C70_default_stop {sp : SciPy K} {cfg : Cfg K} {S : List K} {T : Option (List K)} {mi : Int} {fuel : Nat} {R : Result K}
    (hF : cfg.FIXE = 0) (hH : cfg.FIXE_H = 0) (h1 : 1 ≤ cfg.MAX_ITERATION) (h2 : 0 ≤ cfg.maxIteration)
    (hs1 : 0 ≤ cfg.stop1) (hs2 : 0 ≤ cfg.stop2)
    (h : emd fuel sp cfg S T mi = .ok R) (i : Nat) (hi : i < R.ends.length) :
    ∃ row n, (R.IMF.map (·.2))[i]? = some row ∧ (R.ITER.map (·.2))[i]? = some n ∧ 1 ≤ n ∧ n ≤ cfg.MAX_ITERATION ∧
      n ≤ cfg.maxIteration + 1 ∧
      (n < cfg.MAX_ITERATION → n ≤ cfg.maxIteration → FewExtrema (timeOf S T) row ∨
        ∃ E up lo, findExtrema (timeOf S T) row = .ok E ∧ extractMaxMinSpline sp cfg (timeOf S T) row = .ok (some (up, lo)) ∧
          |((E.maxPos.length : Int) + (E.minPos.length : Int)) - (E.indzer.length : Int)| ≤ 1 ∧
          (up.length = lo.length → Rilling cfg up lo ∧ 2 < E.maxPos.length + E.minPos.length)) := by
  obtain ⟨x, s, why, hx, hrow, -, hn, -, hp⟩ := rounds h i hi
  refine ⟨s.imf, s.n, hrow, hn, ?_⟩
  by_cases ht : why = .trend
  · obtain ⟨hn, himf, E, hE, he, he2⟩ := hp.trend ht
    exact ⟨by omega, by omega, by omega, fun _ _ => .inl ⟨E, by rw [himf]; exact hE, by omega⟩⟩
  · obtain ⟨g1, g2, g3, g4⟩ := hp.other ht h1
    refine ⟨g1, g2, g3 h2, fun l1 l2 => ?_⟩
    cases why with
    | trend => exact absurd rfl ht
    | lost => exact .inl (hp.lost rfl)
    | limit =>
      have := hp.limit rfl h1
      omega
    | tooMany =>
      have := hp.tooMany rfl h2
      omega
    | fixe => exact absurd hF (hp.fixe rfl).1
    | fixeH => exact absurd hH (hp.fixeH rfl).2.1
    | converged =>
      right
      obtain ⟨-, -, up, lo, sum, E, k1, k2, k3, k4, k5, k6⟩ := hp.converged rfl
      refine ⟨E, up, lo, k3, k1, ?_, ?_⟩
      · rw [← k4]; omega
      · intro hl
        obtain ⟨r1, r2⟩ := stopSifting_true hs1 hs2 hl k2 k6
        exact ⟨r1, by omega⟩

/-- Two components stop by the rule before the limits are reached. -/
example : okWith (fun R => R.ends == [.converged, .converged, .trend] && R.ITER == [(0, 4), (1, 3), (2, 1)])
    (emd 20 linSciPy { sampleCfg with MAX_ITERATION := 9 } EMD.sampleS none (-1)) = true := by
  decide +kernel

/-! ## C134 -/

/-- **C134** (EMD_matlab)  With `FIXE_H = k ≥ 1` every component found by the outer loop that did not use up an iteration limit has at most
two extrema, or comes from what remained of the signal by at least `k` siftings, after each of the last `k` of which the numbers of
extrema and of zero crossings differed by at most one. -/
theorem C134_matlab {sp : SciPy K} {cfg : Cfg K} {S : List K} {T : Option (List K)} {mi : Int} {fuel : Nat} {R : Result K} (k : Nat)
    (hk : 1 ≤ k) (hF : cfg.FIXE = 0) (hH : cfg.FIXE_H = k) (h1 : 1 ≤ cfg.MAX_ITERATION) (h2 : 0 ≤ cfg.maxIteration)
    (h : emd fuel sp cfg S T mi = .ok R) (i : Nat) (hi : i < R.ends.length) :
    ∃ x row n, IsResidue S ((R.IMF.map (·.2)).take i) x ∧ (R.IMF.map (·.2))[i]? = some row ∧ (R.ITER.map (·.2))[i]? = some n ∧
      1 ≤ n ∧ n ≤ cfg.MAX_ITERATION ∧ n ≤ cfg.maxIteration + 1 ∧ Sifted sp cfg (timeOf S T) x (n - 1).toNat row ∧
      (n < cfg.MAX_ITERATION → n ≤ cfg.maxIteration → FewExtrema (timeOf S T) row ∨
        ∃ j c : Nat, n = (j : Int) + 1 ∧ k ≤ c ∧ c ≤ j ∧ LastLike sp cfg (timeOf S T) x j c row) := by
  obtain ⟨x, s, why, hx, hrow, -, hn, -, hp⟩ := rounds h i hi
  refine ⟨x, s.imf, s.n, hx, hrow, hn, ?_⟩
  by_cases ht : why = .trend
  · obtain ⟨hn, himf, E, hE, he, he2⟩ := hp.trend ht
    refine ⟨by omega, by omega, by omega, ?_, fun _ _ => .inl ⟨E, by rw [himf]; exact hE, by omega⟩⟩
    rw [hn, himf]
    exact .zero
  · obtain ⟨g1, g2, g3, g4⟩ := hp.other ht h1
    refine ⟨g1, g2, g3 h2, g4, fun l1 l2 => ?_⟩
    cases why with
    | trend => exact absurd rfl ht
    | lost => exact .inl (hp.lost rfl)
    | limit =>
      have := hp.limit rfl h1
      omega
    | tooMany =>
      have := hp.tooMany rfl h2
      omega
    | fixe => exact absurd hF (hp.fixe rfl).1
    | fixeH =>
      obtain ⟨-, -, g5, c, g6, g7⟩ := hp.fixeH rfl
      exact .inr ⟨(s.n - 1).toNat, c, by omega, by omega, g7.le, g7⟩
    | converged =>
      have := (hp.converged rfl).2.1
      omega

/-- Two components end by the rule of `FIXE_H = 2` before the limits are reached. -/
example : okWith (fun R => R.ends == [.fixeH, .fixeH, .trend] && R.ITER == [(0, 3), (1, 3), (2, 1)])
    (emd 20 linSciPy { sampleCfg with MAX_ITERATION := 9, FIXE_H := 2 } EMD.sampleS none (-1)) = true := by
  decide +kernel

/-! ## C72 -/

/-- **C72**, what holds of it: `EXT[i]` is the number of extrema of component `i` if the outer loop stored that component after the default
stopping rule was met or as a trend.  Missing: the entry of an appended residue (a copy of the entry before it, see
`C72_counterexample`), and components whose sifting was cut short or has a fixed number of iterations, where the extrema were counted
before the last subtraction. -/
theorem C72_partial {sp : SciPy K} {cfg : Cfg K} {S : List K} {T : Option (List K)} {mi : Int} {fuel : Nat} {R : Result K}
    (h : emd fuel sp cfg S T mi = .ok R) (i : Nat) (hi : R.ends[i]? = some .converged ∨ R.ends[i]? = some .trend) :
    ∃ row E, (R.IMF.map (·.2))[i]? = some row ∧ findExtrema (timeOf S T) row = .ok E ∧
      (R.EXT.map (·.2))[i]? = some ((E.maxPos.length : Int) + (E.minPos.length : Int)) := by
  have hi' : i < R.ends.length := by
    rcases hi with h | h <;> exact (List.getElem?_eq_some_iff.1 h).1
  obtain ⟨x, s, why, hx, hrow, hext, -, hwhy, hp⟩ := rounds h i hi'
  rw [hwhy] at hi
  rcases hi with hi | hi
  · obtain rfl := Option.some.inj hi
    obtain ⟨-, -, up, lo, sum, E, k1, k2, k3, k4, k5, k6⟩ := hp.converged rfl
    exact ⟨s.imf, E, hrow, k3, by rw [hext, k4]⟩
  · obtain rfl := Option.some.inj hi
    obtain ⟨hn, himf, E, hE, he, he2⟩ := hp.trend rfl
    exact ⟨s.imf, E, hrow, by rw [himf]; exact hE, by rw [hext, he]⟩

example : okWith (fun R => R.ends == [.converged, .converged, .trend] && R.EXT == [(0, 8), (1, 4), (2, 2)])
    (emd 20 linSciPy sampleCfg EMD.sampleS none (-1)) = true := by
  decide +kernel

/-- **C72 is false for the residue**: with `maxImf = 2` the residue has 4 extrema and `EXT` says 8. -/
theorem C72_counterexample : ∃ R row E, emd 20 linSciPy sampleCfg EMD.sampleS none 2 = .ok R ∧ (R.IMF.map (·.2))[1]? = some row ∧
    findExtrema (timeOf EMD.sampleS none) row = .ok E ∧ E.maxPos.length + E.minPos.length = 4 ∧ (R.EXT.map (·.2))[1]? = some 8 := by
  have h : okWith (fun R => okWith (fun E => E.maxPos.length + E.minPos.length == 4)
      (findExtrema (timeOf EMD.sampleS none) ((R.IMF.map (·.2)).getD 1 [])) && (R.EXT.map (·.2))[1]? == some 8 &&
      decide (R.IMF.length = 2)) (emd 20 linSciPy sampleCfg EMD.sampleS none 2) = true := by decide +kernel
  obtain ⟨R, e1, e2⟩ := okWith_iff.1 h
  simp only [Bool.and_eq_true, decide_eq_true_eq, beq_iff_eq] at e2
  obtain ⟨⟨e3, e4⟩, e5⟩ := e2
  obtain ⟨E, e6, e7⟩ := okWith_iff.1 e3
  refine ⟨R, _, E, e1, ?_, e6, by simpa using e7, e4⟩
  have hl : 1 < (R.IMF.map (·.2)).length := by simp [e5]
  rw [List.getElem?_eq_getElem hl, List.getD_eq_getElem?_getD, List.getElem?_eq_getElem hl]
  rfl

end Exact
end Matlab
end PyEMD
