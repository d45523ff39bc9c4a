import Verif.Props.FewExtrema
import Verif.Props.JitSymmetry

/-!
# C169: EMD and JitEMD return a signal that turns at most once as its own trend
-/

set_option linter.unusedSectionVars false

namespace PyEMD

variable {K : Type} [Field K] [LinearOrder K] [IsStrictOrderedRing K] [FloorRing K]

namespace EMD
open EMD.Spec PyEMD.Spec

theorem one_turn {S : List K} (h : TurnsOnce S) : (reported isPos isNeg S).length ≤ 1 ∧ (reported isNeg isPos S).length ≤ 1 := by
  obtain ⟨h1, h2⟩ := Matlab.few_turns h
  have hs := (reported_spec (K := K) isNeg isPos isNeg_zero isPos_zero S).1
  have hd : (reported (isNeg : K → Bool) isPos S).Nodup := hs.imp (fun g => Nat.ne_of_lt g)
  exact ⟨h1, ((hd.subperm (fun m hm => Matlab.reported_minima hm)).length_le).trans h2⟩

theorem find_one_turn {S : List K} (h : TurnsOnce S) (T : List K) (hT : T.length = S.length) :
    ∃ e, findExtrema .simple T S = .ok e ∧ e.minPos.length + e.maxPos.length ≤ 2 := by
  obtain ⟨h1, h2⟩ := one_turn h
  refine ⟨_, findExtremaSimple_eq T S hT, ?_⟩
  simp only [List.length_map]
  omega

/-- **C169 (EMD).**  With simple detection a signal that rises and then falls, or falls and then rises, is returned as the residue, without IMFs. -/
theorem C169_emd (fuel : Nat) (hfuel : 1 ≤ fuel) (sp : SciPy K) (o : Obj K) (hd : o.cfg.detection = .simple) (hM : 2 ≤ o.cfg.MAX_ITERATION) (S : List K)
    (hS : 2 ≤ S.length) (T : Option (List K)) (hT : ∀ T', T = some T' → T'.length = S.length) (h : TurnsOnce S) (mi : Int) :
    ∃ rows o', o.emd fuel sp S T mi = (.ok rows, o') ∧ o'.getImfsAndResidue = .ok ([], S) ∧
      ((Vanishes S ∧ rows = []) ∨ (¬ Vanishes S ∧ rows = [S])) := by
  have hpt := prepareTime_simple o.cfg hd S hS T hT
  refine C11_few_extrema (fun x => by rw [lit_zero, sub_zero]) fuel sp o S T _ mi hfuel hM hpt ?_
  obtain ⟨e, he, hl⟩ := find_one_turn h ((List.range S.length).map (fun k : Nat => (k : K))) (by simp)
  exact ⟨e, by rw [hd]; exact he, by omega⟩

theorem hill : TurnsOnce ([0, 0, 2, 3, 3, 1, 1] : List ℚ) :=
  ⟨3, Or.inl (by
    intro i x y hx hy
    have hi : i < 6 := by
      have := (List.getElem?_eq_some_iff.1 hy).1
      simp at this
      omega
    interval_cases i <;> simp at hx hy <;> subst hx <;> subst hy <;> norm_num)⟩

theorem hill_stands : ¬Vanishes ([0, 0, 2, 3, 3, 1, 1] : List ℚ) := by
  intro h
  have := h 3 (by simp)
  rw [pyAbs_eq, lit_eq] at this
  norm_num at this

/-- A hill with a flat top and flat ends, sampled unevenly. -/
example := C169_emd 1 le_rfl Spec.strictLinSciPy (Obj.mk (Cfg.default : Cfg ℚ) none none) rfl (by decide) _ (by decide) (some [0, 1, 2, 3, 4, 5, 7])
  (by rintro _ ⟨⟩; rfl) hill (-1)

/-- A hill, a valley and a hill are decomposed: two turns more, and the claim would be false. -/
example : okWith (fun R : Result ℚ => decide (R.imfs ≠ [])) (emdPure 9 Spec.strictLinSciPy (Cfg.default : Cfg ℚ) [0, 2, 0, 2, 0] none (-1)) = true := by
  decide +kernel

end EMD

namespace Jit
open EMD.Spec PyEMD.Spec

/-- **C169 (JitEMD).**  The same for `JitEMD`, whatever the time array; `get_imfs_and_trend` then reports no component and the signal as the trend. -/
theorem C169_jit (fuel : Nat) (hfuel : 1 ≤ fuel) (sp : SciPy K) (o : Obj K) (hd : o.cfg.detection = .simple) (hM : 2 ≤ o.cfg.MAX_ITERATION) (S T : List K)
    (hS : S ≠ []) (hT : T.length = S.length) (h : TurnsOnce S) (hv : ¬Vanishes S) (mi : Int) :
    ∃ o', o.emd fuel sp S T mi = (.ok [S], o') ∧ o'.getImfsAndTrend = .ok ([], [S]) := by
  obtain ⟨e, he, hl⟩ := EMD.find_one_turn h ((List.range S.length).map (fun k : Nat => (lit (k : ℚ) : K))) (by simp)
  have hz : vsub S (sumRows S.length []) = S := EMD.vsub_vzeros (by intro x; simp [lit_zero]) S
  have hz1 : vsub S (sumRows S.length [S]) = vzeros S.length := by
    unfold sumRows
    apply List.ext_getElem
    · simp [vsub, vadd, vzeros]
    · intro i g1 g2
      simp [vsub, vadd, vzeros, lit_zero]
  have hc : countExt o.cfg T S = .ok ((e.minPos.length : Int) + (e.maxPos.length : Int), (e.indzer.length : Int)) := by
    unfold countExt
    rw [hd, C56_same_extrema (fun x g => by rw [lit_zero] at *; exact not_lt.2 g.le) T S, he]
    rfl
  have hround : emdRound sp o.cfg T S [] (-1) =
      .ok ({ n := 1, nh := 0, extNo := (e.minPos.length : Int) + (e.maxPos.length : Int), imf := S, subs := 0 }, .trend) := by
    unfold emdRound EMD.siftFuel
    rw [hz]
    simp only [siftLoop, siftBody, hc]
    rw [if_neg (by simp; omega)]
    simp only [EMD.ok_bind]
    rw [if_neg (by omega)]
    rfl
  have hend : ∃ b, endCondition o.cfg S [S] = .ok b := by
    unfold endCondition
    rw [hz1]
    have hne : (vzeros S.length : List K).isEmpty = false := by
      cases S with
      | nil => exact absurd rfl hS
      | cons a l => simp [vzeros]
    unfold npMaxE npMinE
    simp only [hne, Bool.false_eq_true, if_false, EMD.ok_bind]
    split
    · exact ⟨_, rfl⟩
    · split <;> exact ⟨_, rfl⟩
  obtain ⟨b, hb⟩ := hend
  obtain ⟨f, rfl⟩ : ∃ f, fuel = f + 1 := ⟨fuel - 1, by omega⟩
  have hstack : ∀ l, vstack S.length l S = .ok (l ++ [S]) := fun l => if_pos rfl
  have hloop : emdLoop sp o.cfg T S mi (f + 1) [] (-1) = .ok ([S], (e.minPos.length : Int) + (e.maxPos.length : Int)) := by
    simp only [emdLoop, hround, EMD.ok_bind, hstack, List.nil_append, hb]
    simp
    rfl
  have ha : allclose0 S = false := by
    rw [← Bool.not_eq_true, EMD.allclose0_iff]
    exact hv
  have hemd : emd (f + 1) sp o.cfg S T mi = .ok [S] := by
    unfold emd
    rw [if_neg (by rw [hT]; simp), hloop]
    have h2 : (e.minPos.length : Int) + (e.maxPos.length : Int) ≤ 2 := by omega
    simp only [EMD.ok_bind, h2, if_true, List.dropLast_singleton, hz, ha, Bool.not_false]
    exact hstack []
  refine ⟨{ o with imfs := some (pySlice [S] 0 (-1)), residue := some (pySliceFrom [S] (-1)) }, ?_, ?_⟩
  · unfold Obj.emd
    rw [hemd]
  · obtain ⟨q1, q2⟩ := slice_last [] S
    rw [List.nil_append] at q1 q2
    unfold Obj.getImfsAndTrend
    simp only [q1, q2, List.all_cons, ha, Bool.false_and, Bool.false_eq_true, if_false]

/-- The hill again. -/
example := C169_jit 1 le_rfl EMD.Spec.strictLinSciPy (Obj.new (EMD.Cfg.default : EMD.Cfg ℚ)) rfl (by decide) [0, 0, 2, 3, 3, 1, 1] [0, 1, 2, 3, 4, 5, 7] (by simp) rfl EMD.hill
  EMD.hill_stands (-1)

end Jit
end PyEMD
