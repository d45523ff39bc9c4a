import Verif.Lemmas.MatlabAffine
import Verif.Props.Matlab
import Verif.Props.MatlabVsEmd
import Verif.Props.Recursion

/-!
# The later components of `EMD_matlab` are the decomposition of what the earlier ones leave (C141)
-/

set_option linter.unusedSectionVars false

namespace PyEMD
namespace Matlab
open EMD.Spec (IsResidue colSum)

variable {K : Type} [Field K] [LinearOrder K] [IsStrictOrderedRing K] [FloorRing K]

/-- The count of extrema from the previous round is not read. -/
theorem siftLoop_extNo {sp : SciPy K} {cfg : Cfg K} (hM : 1 ≤ cfg.MAX_ITERATION) (T x m : List K) (e e' : Int) (fuel : Nat) :
    siftLoop sp cfg T (fuel + 1) { n := 0, nh := 0, extNo := e, imf := x, mean := m } =
      siftLoop sp cfg T (fuel + 1) { n := 0, nh := 0, extNo := e', imf := x, mean := m } := by
  unfold siftLoop
  rw [if_pos (by show (0 : Int) < _; omega), if_pos (by show (0 : Int) < _; omega)]
  rfl

/-- The state `A` is the state `B` behind `j` earlier rounds. -/
structure Shift (j : Nat) (pI : List (List K)) (pE pN : List Int) (pW : List SiftEnd) (A B : State K) : Prop where
  keys : Keys A.IMF A.imfNo
  keysE : Keys A.EXT A.imfNo
  keysI : Keys A.ITER A.imfNo
  keys' : Keys B.IMF B.imfNo
  keysE' : Keys B.EXT B.imfNo
  keysI' : Keys B.ITER B.imfNo
  no : A.imfNo = j + B.imfNo
  rows : A.IMF.map (·.2) = pI ++ B.IMF.map (·.2)
  exts : A.EXT.map (·.2) = pE ++ B.EXT.map (·.2)
  iters : A.ITER.map (·.2) = pN ++ B.ITER.map (·.2)
  ends : A.ends = pW ++ B.ends
  len : A.imf.length = A.Res.length ↔ B.imf.length = B.Res.length
  rest : A.imf.length = A.Res.length → vsub A.Res A.imf = vsub B.Res B.imf

theorem emdRound_shift {sp : SciPy K} {cfg : Cfg K} (hM : 1 ≤ cfg.MAX_ITERATION) {T : List K} {n : Nat} {mi : Int} {j : Nat}
    {pI : List (List K)} {pE pN : List Int} {pW : List SiftEnd} {A B : State K} (h : Shift j pI pE pN pW A B) :
    RelX (fun r r' => r'.2 = r.2 ∧ Shift j pI pE pN pW r.1 r'.1 ∧ r'.1.extNo = r.1.extNo) (emdRound sp cfg T n mi A)
      (emdRound sp cfg T n (mi - j) B) := by
  unfold emdRound
  by_cases hl : A.imf.length = A.Res.length
  · rw [if_neg (by simpa using hl), if_neg (by simpa using h.len.1 hl), h.rest hl]
    dsimp only
    rw [siftLoop_extNo hM T _ _ A.extNo B.extNo]
    refine (RelX.refl _).bind ?_
    rintro ⟨s, why⟩ _ - - rfl
    refine RelX.pure ⟨?_, ⟨h.keys.succ _, h.keysE.succ _, h.keysI.succ _, h.keys'.succ _, h.keysE'.succ _, h.keysI'.succ _, ?_, ?_, ?_, ?_, ?_,
      Iff.rfl, fun _ => rfl⟩, rfl⟩
    · show (why == SiftEnd.trend || decide (((B.imfNo + 1 : Nat) : Int) = mi - j - 1)) =
        (why == SiftEnd.trend || decide (((A.imfNo + 1 : Nat) : Int) = mi - 1))
      rw [h.no]
      congr 1
      apply decide_eq_decide.2
      push_cast
      omega
    · show A.imfNo + 1 = j + (B.imfNo + 1)
      rw [h.no]; omega
    · show (dictSet _ _ _).map _ = _ ++ (dictSet _ _ _).map _
      rw [h.keys.set, h.keys'.set, List.map_append, List.map_append, h.rows, List.append_assoc]
      rfl
    · show (dictSet _ _ _).map _ = _ ++ (dictSet _ _ _).map _
      rw [h.keysE.set, h.keysE'.set, List.map_append, List.map_append, h.exts, List.append_assoc]
      rfl
    · show (dictSet _ _ _).map _ = _ ++ (dictSet _ _ _).map _
      rw [h.keysI.set, h.keysI'.set, List.map_append, List.map_append, h.iters, List.append_assoc]
      rfl
    · show A.ends ++ _ = _ ++ (B.ends ++ _)
      rw [h.ends, List.append_assoc]
  · rw [if_pos hl, if_pos (fun hc => hl (h.len.2 hc))]
    rfl

theorem emdLoop_shift {sp : SciPy K} {cfg : Cfg K} (hM : 1 ≤ cfg.MAX_ITERATION) {T : List K} {n : Nat} {mi : Int} {j : Nat}
    {pI : List (List K)} {pE pN : List Int} {pW : List SiftEnd} (fuel : Nat) {A B : State K} (h : Shift j pI pE pN pW A B) :
    RelX (fun r r' => Shift j pI pE pN pW r r' ∧ r'.extNo = r.extNo) (emdLoop sp cfg T n mi fuel A) (emdLoop sp cfg T n (mi - j) fuel B) := by
  induction fuel generalizing A B with
  | zero => rfl
  | succ fuel ih =>
    unfold emdLoop
    refine (emdRound_shift hM h).bind ?_
    rintro ⟨s, f⟩ ⟨s', f'⟩ - - ⟨h1, h2, h3⟩
    simp only at h1 h2 h3
    subst h1
    cases f' with
    | true => exact RelX.pure ⟨h2, h3⟩
    | false => exact ih h2

/-- The state after `j` of the rounds. -/
theorem emdLoop_unroll {sp : SciPy K} {cfg : Cfg K} {T S : List K} {mi : Int} (j : Nat) {fuel : Nat} {recs : List (Rec K)} {st st' : State K}
    (hI : StateOk sp cfg T S recs st) (h : emdLoop sp cfg T S.length mi fuel st = .ok st') (hj : recs.length + j < st'.ends.length) :
    ∃ recs1 st1, StateOk sp cfg T S recs1 st1 ∧ recs1.length = recs.length + j ∧ st1.imf.length = st1.Res.length ∧
      emdLoop sp cfg T S.length mi (fuel - j) st1 = .ok st' := by
  induction j generalizing fuel recs st with
  | zero =>
    refine ⟨recs, st, hI, rfl, ?_, h⟩
    cases fuel with
    | zero => cases h
    | succ fuel =>
      unfold emdLoop emdRound at h
      split at h
      · cases h
      · next hl => simpa using hl
  | succ j ih =>
    cases fuel with
    | zero => cases h
    | succ fuel =>
      unfold emdLoop at h
      simp only [bind_eq_ok] at h
      obtain ⟨⟨st1, fin⟩, h1, h⟩ := h
      obtain ⟨r, hI', -⟩ := emdRound_ok hI h1
      simp only at h
      split at h
      · rw [pure_eq_ok] at h
        subst h
        rw [hI'.ends] at hj
        simp at hj
      · obtain ⟨recs1, st2, a1, a2, a3, a4⟩ := ih hI' h (by simp; omega)
        refine ⟨recs1, st2, a1, by simp at a2; omega, a3, ?_⟩
        rw [Nat.succ_sub_succ]
        exact a4

theorem residue_shift {S S' res res' : List K} {A B : List (List K)} (h : IsResidue S A S') (h1 : IsResidue S (A ++ B) res)
    (h2 : IsResidue S' B res') : res = res' := by
  apply List.ext_getElem?
  intro i
  by_cases hi : i < S.length
  · obtain ⟨s, hs, e1⟩ := h.2 i hi
    obtain ⟨s1, hs1, e2⟩ := h1.2 i hi
    obtain ⟨s2, hs2, e3⟩ := h2.2 i (by rw [h.1]; exact hi)
    rw [hs] at hs1
    cases hs1
    rw [e1] at hs2
    cases hs2
    rw [e2, e3, EMD.colSum_append]
    congr 1
    ring
  · rw [List.getElem?_eq_none (by rw [h1.1]; omega), List.getElem?_eq_none (by rw [h2.1, h.1]; omega)]

theorem finish_shift {S S' : List K} {j : Nat} {pI : List (List K)} {pE pN : List Int} {pW : List SiftEnd} {A B : State K}
    (h : Shift j pI pE pN pW A B) (he : B.extNo = A.extNo) (hS : IsResidue S pI S') {R : Result K} (hR : finish S (lit 1) A = .ok R) :
    ∃ R', finish S' (lit 1) B = .ok R' ∧ R.imfNo = j + R'.imfNo ∧ R.IMF.map (·.2) = pI ++ R'.IMF.map (·.2) ∧
      R.EXT.map (·.2) = pE ++ R'.EXT.map (·.2) ∧ R.ITER.map (·.2) = pN ++ R'.ITER.map (·.2) ∧ R.ends = pW ++ R'.ends := by
  rw [finish_eq h.keys, h.rows] at hR
  split at hR
  · next hall =>
    rw [List.all_append, Bool.and_eq_true] at hall
    have hA : ∀ r ∈ pI ++ B.IMF.map (·.2), r.length = S.length := by
      intro r hr
      rcases List.mem_append.1 hr with hr | hr
      · simpa using List.all_eq_true.1 hall.1 r hr
      · simpa using List.all_eq_true.1 hall.2 r hr
    have hB : ∀ r ∈ B.IMF.map (·.2), r.length = S'.length := by
      intro r hr
      rw [hS.1]
      exact hA r (List.mem_append_right _ hr)
    have hres := residue_shift hS (EMD.isResidue_vsub S _ hA) (EMD.isResidue_vsub S' _ hB)
    rw [hres] at hR
    have hBb : (B.IMF.map (·.2)).all (fun r => decide (r.length = S'.length)) = true := by
      rw [List.all_eq_true]
      intro r hr
      simpa using hB r hr
    rw [finish_eq h.keys', if_pos hBb]
    refine ⟨_, rfl, ?_⟩
    have hR := Except.ok.inj hR
    subst hR
    dsimp only
    split
    · refine ⟨by rw [h.no]; omega, ?_, ?_, ?_, h.ends⟩
      · rw [List.map_append, List.map_append, h.rows, List.append_assoc]
        rfl
      · rw [h.keysE.set, h.keysE'.set, List.map_append, List.map_append, h.exts, he, List.append_assoc]
        rfl
      · rw [h.keysI.set, h.keysI'.set, List.map_append, List.map_append, h.iters, List.append_assoc]
        rfl
    · exact ⟨h.no, h.rows, h.exts, h.iters, h.ends⟩
  · cases hR

/-- **C141.**  Take the first `j` sifted components away from the signal: the decomposition of the rest consists of the remaining
components, with the same numbers of extrema and iterations, the same ends of the rounds and the same remainder; the limit is smaller by
`j`.  At least one sifted component has to remain. -/
theorem C141_recursion (fuel : Nat) (sp : SciPy K) (cfg : Cfg K) (hM : 1 ≤ cfg.MAX_ITERATION) (S : List K) (T : Option (List K)) (mi : Int)
    (R : Result K) (h : emd fuel sp cfg S T mi = .ok R) (j : Nat) (hj : j < R.ends.length) (S' : List K)
    (hS : IsResidue S ((R.IMF.map (·.2)).take j) S') :
    ∃ R', emd (fuel - j) sp cfg S' T (mi - j) = .ok R' ∧ R'.imfNo = R.imfNo - j ∧ R'.IMF.map (·.2) = (R.IMF.map (·.2)).drop j ∧
      R'.EXT.map (·.2) = (R.EXT.map (·.2)).drop j ∧ R'.ITER.map (·.2) = (R.ITER.map (·.2)).drop j ∧ R'.ends = R.ends.drop j := by
  have hSl : S'.length = S.length := hS.1
  unfold emd at h ⊢
  simp only [lit_one, div_one, List.map_id'] at h ⊢
  rw [hSl]
  change (if S.length ≠ (timeOf S T).length then _ else _) = _ at h
  change ∃ R', (if S.length ≠ (timeOf S T).length then _ else _) = _ ∧ _
  split at h
  · cases h
  · next hl =>
    rw [if_neg hl]
    simp only [bind_eq_ok] at h
    obtain ⟨st, hst, h⟩ := h
    have hinit : StateOk sp cfg (timeOf S T) S []
        { Res := S, imf := vzeros S.length, IMF := [], EXT := [], ITER := [], imfNo := 0, extNo := 0, ends := [] } := by
      refine ⟨⟨by simp, by simp⟩, rfl, rfl, rfl, rfl, rfl, rfl, rfl, rfl, ?_, by simp⟩
      intro _
      refine ⟨by simp [vsub, vzeros], ?_⟩
      intro i hi
      refine ⟨S[i], List.getElem?_eq_getElem hi, ?_⟩
      rw [vsub_getElem? _ _ _ _ 0 (List.getElem?_eq_getElem hi) (by simp [vzeros, hi])]
      simp [colSum_eq]
    have hends : R.ends = st.ends := by
      obtain ⟨recs, r, hI, -⟩ := emdLoop_ok hinit (by intro i r hr; simp at hr) hst
      rw [← lit_one, finish_eq hI.keys] at h
      split at h
      · cases h; rfl
      · cases h
    rw [hends] at hj
    obtain ⟨recs1, st1, a1, a2, a3, a4⟩ := emdLoop_unroll j hinit hst (by simpa using hj)
    have a2 : recs1.length = j := by simpa using a2
    have hzero : ∀ l : List K, vsub l (vzeros l.length) = l := by
      intro l
      induction l with
      | nil => rfl
      | cons a l ih =>
        show (a - lit 0) :: vsub l (vzeros l.length) = _
        rw [ih, lit_zero, sub_zero]
    have hno : st1.imfNo = j := by rw [a1.imfNo, a2]
    have hsh : Shift j (st1.IMF.map (·.2)) (st1.EXT.map (·.2)) (st1.ITER.map (·.2)) st1.ends st1
        { Res := vsub st1.Res st1.imf, imf := vzeros S.length, IMF := [], EXT := [], ITER := [], imfNo := 0, extNo := 0, ends := [] } := by
      have hl1 : (vsub st1.Res st1.imf).length = S.length := (a1.res a3).1
      refine ⟨a1.keys, a1.keysE, a1.keysI, rfl, rfl, rfl, hno, by simp, by simp, by simp, by simp, ?_, ?_⟩
      · refine ⟨fun _ => ?_, fun _ => a3⟩
        show (vzeros S.length).length = _
        rw [hl1]
        simp [vzeros]
      · intro _
        show _ = vsub (vsub st1.Res st1.imf) (vzeros S.length)
        rw [← hl1, hzero]
    have hrel := emdLoop_shift (sp := sp) hM (T := timeOf S T) (n := S.length) (mi := mi) (fuel - j) hsh
    rw [a4] at hrel
    cases hB : emdLoop sp cfg (timeOf S T) S.length (mi - j) (fuel - j)
        { Res := vsub st1.Res st1.imf, imf := vzeros S.length, IMF := [], EXT := [], ITER := [], imfNo := 0, extNo := 0, ends := [] } with
    | error e => rw [hB] at hrel; exact hrel.elim
    | ok stB =>
      rw [hB] at hrel
      obtain ⟨hrel, hext⟩ := hrel
      have hp : IsResidue S (st1.IMF.map (·.2)) (vsub st1.Res st1.imf) := by
        rw [a1.rows]; exact a1.res a3
      rw [← lit_one] at h
      obtain ⟨R', b1, b2, b3, b4, b5, b6⟩ := finish_shift hrel hext hp h
      have hplen : (st1.IMF.map (·.2)).length = j := by rw [List.length_map, a1.keys.length, hno]
      have hS' : S' = vsub st1.Res st1.imf := by
        rw [b3, List.take_left' hplen] at hS
        exact EMD.isResidue_unique hS hp
      subst hS'
      refine ⟨R', ?_, by omega, ?_, ?_, ?_, ?_⟩
      · change (emdLoop sp cfg (timeOf S T) S.length (mi - j) (fuel - j) _ >>= _) = _
        rw [hB]
        rw [lit_one] at b1
        exact b1
      · rw [b3, List.drop_left' hplen]
      · rw [b4, List.drop_left' (by rw [List.length_map, a1.keysE.length, hno])]
      · rw [b5, List.drop_left' (by rw [List.length_map, a1.keysI.length, hno])]
      · rw [b6, List.drop_left' (by rw [a1.ends, List.length_map, a2])]

/-- The sample has two components and a trend; without the first component, the second one and the trend are left.  The hypothesis
on `S'` is met by the difference computed here. -/
example : 1 ≤ (sampleFixe : Cfg ℚ).MAX_ITERATION ∧
    okWith (fun R => R.ends == [.fixe, .fixe, .trend] &&
      okWith (fun R' => R'.IMF.map (·.2) == (R.IMF.map (·.2)).drop 1 && R'.ITER.map (·.2) == (R.ITER.map (·.2)).drop 1 && R'.imfNo == 2)
        (emd 19 linSciPy sampleFixe (vsub EMD.sampleS (sumRows EMD.sampleS.length ((R.IMF.map (·.2)).take 1))) none (-2)))
      (emd 20 linSciPy sampleFixe EMD.sampleS none (-1)) = true :=
  ⟨by decide, by decide +kernel⟩

end Matlab
end PyEMD
