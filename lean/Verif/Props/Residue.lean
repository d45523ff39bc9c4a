import Verif.Props.Truncation
import Verif.Props.EmdExact
import Verif.Props.Scipy

/-!
# What the residue of a complete decomposition is (C104), and what `EMD()` does with its documented defaults (C105)
-/

set_option linter.unusedSectionVars false

namespace PyEMD
namespace EMD
open Spec

section LawFree

variable {α : Type} [Add α] [Sub α] [Mul α] [Div α] [Neg α] [LT α] [LE α] [BEq α]
  [DecidableLT α] [DecidableLE α] [NpScalar α]

/-- The final `extNo` is the one of the last round. -/
theorem emdLoop_last {sp : SciPy α} {cfg : Cfg α} {T S : List α} {m : Int} (fuel : Nat) {rounds rs : List (Round α)} {e e1 : Int}
    (h : emdLoop sp cfg T S m fuel rounds e = .ok (rs, e1)) :
    ∃ (r : Round α) (s : Sift α) (e0 : Int), rs.getLast? = some r ∧ r.imf = s.imf ∧ s.extNo = e1 ∧
      siftLoop sp cfg T (siftFuel cfg) { n := 0, nh := 0, extNo := e0, imf := vsub S (sumRows S.length (rs.dropLast.map (·.imf))), subs := 0 } =
        .ok (s, r.why) := by
  induction fuel generalizing rounds e with
  | zero => simp [emdLoop] at h
  | succ fuel ih =>
    rw [emdLoop, bind_eq_ok] at h
    obtain ⟨⟨s, why⟩, hr, h⟩ := h
    dsimp only at h
    rw [bind_eq_ok] at h
    obtain ⟨fin, hfin, h⟩ := h
    split at h
    · rw [pure_eq_ok, Prod.mk.injEq] at h
      obtain ⟨rfl, rfl⟩ := h
      refine ⟨_, s, e, List.getLast?_concat, rfl, rfl, ?_⟩
      rw [List.dropLast_concat]
      exact hr
    · exact ih h

/-- C104, without a limit on the number of components: the residue ends the decomposition because `end_condition` holds for the components, or because
sifting it `m` times leads to at most two extrema.  Law-free. -/
theorem C104_why (fuel : Nat) (sp : SciPy α) (cfg : Cfg α) (hM : 2 ≤ cfg.MAX_ITERATION) (S : List α) (T : Option (List α)) (mi : Int) (hmi : mi ≤ 0)
    (R : Result α) (h : emdPure fuel sp cfg S T mi = .ok R) :
    ∃ T', prepareTime cfg S T = .ok T' ∧ (endCondition cfg S R.imfs = .ok true ∨
      ∃ m y seq, SiftPath sp cfg T' m R.residue y seq ∧ FewExtrema cfg T' y) := by
  obtain ⟨T', rs, e1, hT, hr, hp, rfl⟩ := emdPure_post h
  refine ⟨T', hT, ?_⟩
  have hloop : emdLoop sp cfg T' S mi fuel [] (-1) = .ok (rs, e1) := by
    unfold emdRounds at hr
    rw [hT] at hr
    exact hr
  obtain ⟨r, s, e0, h1, h2, h3, h4⟩ := emdLoop_last fuel hloop
  have hpost : ∃ seq, SiftPost sp cfg T' (vsub S (sumRows S.length (rs.dropLast.map (·.imf)))) s r.why seq :=
    siftLoop_post _ (siftInv_start _ _ _ _ _) h4
  obtain ⟨seq, hpost⟩ := hpost
  by_cases he : e1 ≤ 2
  · right
    refine ⟨s.subs, s.imf, seq, ?_, ?_⟩
    · unfold finish
      dsimp only
      rw [if_pos he, ← List.map_dropLast]
      exact hpost.path
    · by_cases hw : r.why = .trend
      · exact (hpost.trend hw).2
      · rcases siftLoop_extNo _ (.inl rfl) h4 hw with h5 | ⟨-, h5⟩ | ⟨-, z, h5⟩
        · omega
        · omega
        · exact fewExtrema_of_countExt h5 (by omega)
  · left
    unfold finish
    dsimp only
    rw [if_neg he]
    rcases hp.stops with h5 | h5 | ⟨r', hr', ht⟩
    · exact h5
    · have := List.length_pos_iff.2 hp.ne
      omega
    · rw [h1] at hr'
      cases hr'
      have := (hpost.trend ht).1
      omega

end LawFree

variable {K : Type} [Field K] [LinearOrder K] [IsStrictOrderedRing K] [FloorRing K]

/-- C104: the residue of a decomposition without limit ranges over less than `range_thr`, has a total below `total_power_thr`, or becomes a signal with at
most two extrema by sifting.
Missing: that it has at most two extrema itself in the last case, which is false, see `C104_counterexample`. -/
theorem C104_residue_partial (fuel : Nat) (sp : SciPy K) (cfg : Cfg K) (hM : 2 ≤ cfg.MAX_ITERATION) (S : List K) (T : Option (List K)) (mi : Int)
    (hmi : mi ≤ 0) (R : Result K) (h : emdPure fuel sp cfg S T mi = .ok R) :
    ∃ T', prepareTime cfg S T = .ok T' ∧ ((∀ a ∈ R.residue, ∀ b ∈ R.residue, a - b < cfg.rangeThr) ∨
      (R.residue.map (fun a => |a|)).sum < cfg.totalPowerThr ∨ ∃ m y seq, SiftPath sp cfg T' m R.residue y seq ∧ FewExtrema cfg T' y) := by
  obtain ⟨T', hT, hw⟩ := C104_why fuel sp cfg hM S T mi hmi R h
  refine ⟨T', hT, ?_⟩
  rcases hw with hw | hw
  · have hS := prepareTime_ne_nil hT
    have hl := emdPure_imfs_length h
    obtain ⟨b, hb, hiff⟩ := C29_end_condition cfg S R.imfs hS hl
    rw [hw] at hb
    cases hb
    have hres : R.residue = (List.range S.length).map (restAt S R.imfs) := by
      have hr : R.residue = vsub S (sumRows S.length R.imfs) := by
        obtain ⟨-, rs, e1, -, -, -, rfl⟩ := emdPure_post h
        rfl
      rw [hr]
      apply List.ext_getElem
      · simp [length_sumRows _ _ hl]
      · intro i h1 h2
        have hi : i < S.length := by simpa using h2
        apply Option.some_injective
        rw [← List.getElem?_eq_getElem h1, vsub_getElem? _ _ _ _ _ (List.getElem?_eq_getElem hi) (sumRows_getElem? _ _ hl i hi), colSum_eq]
        simp [restAt, hi]
    rcases hiff.1 rfl with h1 | h1
    · left
      rw [hres]
      intro a ha b hb
      obtain ⟨i, hi, rfl⟩ := List.mem_map.1 ha
      obtain ⟨j, hj, rfl⟩ := List.mem_map.1 hb
      exact h1 i (List.mem_range.1 hi) j (List.mem_range.1 hj)
    · right; left
      rw [hres, List.map_map]
      exact h1
  · exact .inr (.inr hw)

/-- Number of extrema that the simple detection reports. -/
def extremaOf (x : List ℚ) : PyM Nat := do
  let e ← findExtrema .simple ((List.range x.length).map (fun k : Nat => (k : ℚ))) x
  return e.maxPos.length + e.minPos.length

/-- C104 fails as stated: with all defaults, the residue of this signal has three extrema, ranges over more than 1 and has a total above 20. -/
theorem C104_counterexample :
    okWith (fun R => R.imfs.length == 1 && okWith (· == 3) (extremaOf R.residue) &&
        R.residue.any (fun a => R.residue.any (fun b => decide (1 ≤ a - b))) && decide (20 ≤ (R.residue.map (fun a => |a|)).sum))
      (emdPure 6 Scipy.scipy (Cfg.default : Cfg ℚ) [2, 0, 4, 0, 6, 5, 5] none (-1)) = true := by decide +kernel

/-! ## C105 -/

namespace Spec

/-- The documented defaults of `EMD`: /repo/PyEMD/EMD.py:66-84 and 24-25, /repo/doc/emd.rst. -/
def documented : Cfg K where
  energyRatioThr := 1 / 5
  stdThr := 1 / 5
  svarThr := 1 / 1000
  totalPowerThr := 1 / 200
  rangeThr := 1 / 1000
  nbsym := 2
  splineKind := .cubic
  detection := .simple
  FIXE := 0
  FIXE_H := 0
  MAX_ITERATION := 1000

end Spec

/-- C105: what `EMD()(S)` consists of.  The rows add up to the signal; each component comes from at most 999 subtractions of the mean of the cubic
envelopes from what the components before it leave, and unless it took exactly 999 of them it has as many extrema as zero crossings, give or take one,
an energy of at least 1e-10, and the last subtraction changed it by less than the documented thresholds; and the decomposition ends for the documented
reasons. -/
theorem C105_defaults (fuel : Nat) (S : List K) (hS : 2 ≤ S.length) (mi : Int) (hmi : mi ≤ 0) (R : Result K)
    (h : emdPure fuel Scipy.scipy Cfg.default S none mi = .ok R) :
    (∀ i < S.length, (R.imfs.map (fun c => c.getD i 0)).sum + R.residue.getD i 0 = S.getD i 0) ∧
    (∀ j c, R.imfs[j]? = some c → ∃ x seq m, IsResidue S (R.imfs.take j) x ∧
      SiftPath Scipy.scipy documented ((List.range S.length).map (fun k : Nat => (k : K))) m x c seq ∧ 1 ≤ m ∧ m ≤ 999 ∧
      (m < 999 → ImfLike (documented : Cfg K) ((List.range S.length).map (fun k : Nat => (k : K))) c ∧ 1 / 10000000000 ≤ energy c ∧
        ∃ old rest, seq = c :: old :: rest ∧ Converged documented c old)) ∧
    ((∀ a ∈ R.residue, ∀ b ∈ R.residue, a - b < 1 / 1000) ∨ (R.residue.map (fun a => |a|)).sum < 1 / 200 ∨
      ∃ m y seq, SiftPath Scipy.scipy documented ((List.range S.length).map (fun k : Nat => (k : K))) m R.residue y seq ∧
        FewExtrema (documented : Cfg K) ((List.range S.length).map (fun k : Nat => (k : K))) y) := by
  have hdef : (Cfg.default : Cfg K) = documented := by
    unfold Cfg.default documented
    simp only [lit_eq]
    norm_num
  rw [hdef] at h
  have hpt : prepareTime (documented : Cfg K) S none = .ok ((List.range S.length).map (fun k : Nat => (k : K))) :=
    prepareTime_simple _ rfl S hS none (by simp)
  have hSn : S ≠ [] := by rintro rfl; simp at hS
  have hl := emdPure_imfs_length h
  refine ⟨?_, ?_, ?_⟩
  · intro i hi
    have hr : R.residue = vsub S (sumRows S.length R.imfs) := by
      obtain ⟨-, rs, e1, -, -, -, rfl⟩ := emdPure_post h
      rfl
    have hg := vsub_getElem? S (sumRows S.length R.imfs) i _ _ (List.getElem?_eq_getElem hi) (sumRows_getElem? _ _ hl i hi)
    have hd1 : (vsub S (sumRows S.length R.imfs)).getD i 0 = S[i] - colSum R.imfs i := by rw [List.getD_eq_getElem?_getD, hg]; rfl
    have hd2 : S.getD i 0 = S[i] := by rw [List.getD_eq_getElem?_getD, List.getElem?_eq_getElem hi]; rfl
    rw [hr, hd1, hd2, colSum_eq]
    simp
  · obtain ⟨T', hT, hs⟩ := stored_component h
    rw [hpt] at hT
    injection hT with hT
    subst hT
    intro j c hc
    obtain ⟨x, s, why, seq, h1, rfl, h2, h3⟩ := hs j c hc
    have hM : (documented : Cfg K).MAX_ITERATION = 1000 := rfl
    have hb := h2.bound
    rw [hM] at hb
    refine ⟨x, seq, s.subs, h1, h2.path, ?_⟩
    cases why with
    | maxIter =>
      have := h2.maxIter rfl
      rw [hM] at this
      exact ⟨by omega, by omega, fun h => by omega⟩
    | fixe => exact absurd rfl (h2.fixe rfl).1
    | fixeH => exact absurd rfl (h2.fixeH rfl).2.1
    | converged =>
      obtain ⟨-, -, h5, h6, old, rest, e, kmax, kmin, hseq, -, -, hchk⟩ := h2.converged rfl
      refine ⟨h5, by omega, fun _ => ?_⟩
      have hlen : s.imf.length = old.length := by
        obtain ⟨hq, -⟩ := h2.path
        rw [hseq] at hq
        cases hq with
        | step _ hsub => exact hsub.length
      have hc0 : s.imf.length = S.length := hl _ (List.mem_of_getElem? hc)
      have hne : old ≠ [] := by
        rintro rfl
        rw [hlen] at hc0
        exact hSn (List.eq_nil_of_length_eq_zero hc0.symm)
      obtain ⟨b, hb, hiff⟩ := C30_check_imf documented s.imf old kmax kmin hlen hne
      rw [hchk] at hb
      cases hb
      obtain ⟨-, -, g1, g2⟩ := hiff.1 rfl
      exact ⟨h6, g1, old, rest, hseq, g2⟩
    | trend => exact absurd rfl h3
  · obtain ⟨T', hT, hw⟩ := C104_residue_partial fuel _ documented (show (2 : Int) ≤ 1000 by norm_num) S none mi hmi R h
    rw [hpt] at hT
    injection hT with hT
    subst hT
    exact hw

/-- A signal with one component; its residue falls under the last case of the ending. -/
example : okWith (fun R => R.imfs.length == 1 && R.residue.length == 7)
    (emdPure 6 Scipy.scipy (Cfg.default : Cfg ℚ) [2, 0, 4, 0, 6, 5, 5] none (-1)) = true := by decide +kernel

end EMD
end PyEMD
