import Verif.Model.Jit
import Verif.Lemmas.Runs
import Verif.Lemmas.Points
import Verif.Lemmas.EmdLoop
import Verif.Lemmas.ExtremaSpec

/-!
# `JitEMD` against `EMD`
-/

set_option linter.unusedSectionVars false

namespace PyEMD

theorem pyGet_error {β : Type} {l : List β} {i : Int} {e : PyErr} (h : pyGet l i = .error e) : e = .indexError := by
  unfold pyGet at h
  split at h
  · cases h; rfl
  · split at h
    · cases h; rfl
    · cases h

theorem pyTake_error {β : Type} {l : List β} {idx : List Int} {e : PyErr} (h : pyTake l idx = .error e) : e = .indexError := by
  induction idx with
  | nil => cases h
  | cons i idx ih =>
    unfold pyTake at h
    cases h1 : pyGet l i with
    | error e' =>
      rw [h1] at h
      cases h
      exact pyGet_error h1
    | ok x =>
      rw [h1] at h
      cases h2 : pyTake l idx with
      | error e' =>
        rw [h2] at h
        cases h
        exact ih h2
      | ok xs =>
        rw [h2] at h
        cases h

theorem zipWith_left {β γ : Type} (f : β → γ → Bool) (q : β → Bool) (l : List β) (m : List γ) :
    List.zipWith (fun sc a => sc && q a) (List.zipWith f l m) l = List.zipWith (fun a b => f a b && q a) l m := by
  induction l generalizing m with
  | nil => simp
  | cons a l ih => cases m with
    | nil => simp
    | cons b m => simp [ih]

namespace Jit
open EMD (Extrema Detection SplineKind Cfg Sift SiftEnd SiftStep Round)

section LawFree
variable {α : Type} [Add α] [Sub α] [Mul α] [Div α] [Neg α] [LT α] [LE α] [BEq α]
  [DecidableLT α] [DecidableLE α] [NpScalar α]

theorem zeroCrossings_eq (S : List α) : zeroCrossings S = EMD.zeroCrossings S := rfl

/-- The runs used by the reference, as pairs. -/
theorem usedRuns_eq (n : Nat) (d : List α) : ∃ R : List (Nat × Nat),
    usedRuns n d = (R.map (·.1), R.map (·.2)) ∧
      EMD.dropLastRun n (EMD.dropFirstRun (EMD.flatRuns d)) = (R.map (·.1), R.map (·.2)) := by
  have h1 := runDiff_starts (d.map (fun x => x == lit 0))
  have h2 := runDiff_ends (d.map (fun x => x == lit 0))
  unfold usedRuns EMD.flatRuns
  simp only [h1, h2]
  generalize runs (d.map (fun x => x == lit 0)) = R
  have first : ∃ R1 : List (Nat × Nat), EMD.dropFirstRun (R.map (·.1), R.map (·.2)) = (R1.map (·.1), R1.map (·.2)) ∧
      (if (R.map (·.1)).head? = some 1 then ((R.map (·.1)).tail, (R.map (·.2)).tail) else (R.map (·.1), R.map (·.2))) =
        (R1.map (·.1), R1.map (·.2)) := by
    cases R with
    | nil => exact ⟨[], rfl, rfl⟩
    | cons p R =>
      by_cases hp : p.1 = 1
      · refine ⟨R, ?_, by simp [hp]⟩
        unfold EMD.dropFirstRun
        simp only [List.map_cons, hp, List.length_cons, List.length_map, List.tail_cons]
        cases R with
        | nil => simp
        | cons q R => simp
      · refine ⟨p :: R, ?_, by simp [hp]⟩
        unfold EMD.dropFirstRun
        simp only [List.map_cons]
        split
        · next h =>
          exact absurd (List.cons.inj h).1 hp
        · rfl
  obtain ⟨R1, e1, e2⟩ := first
  rw [e1, e2]
  by_cases hc : (R1.map (·.1)).length > 0 ∧ (R1.map (·.2)).getLast? = some (n - 1)
  · refine ⟨R1.dropLast, ?_, ?_⟩
    · rw [if_pos hc]
      simp [List.map_dropLast]
    · unfold EMD.dropLastRun
      rw [if_pos hc]
      split
      · simp [List.map_dropLast]
      · next h =>
        have : R1.dropLast = [] := by
          rw [← List.length_eq_zero_iff]
          simp at h ⊢
          omega
        rw [this]
        rfl
  · refine ⟨R1, ?_, ?_⟩
    · rw [if_neg hc]
    · unfold EMD.dropLastRun
      rw [if_neg hc]

/-- The loop over the runs selects what the masks of the reference select. -/
theorem runLoop_eq (has : ∀ x : α, lit 0 < x → ¬ x < lit 0) (d : List α) (R : List (Nat × Nat)) :
    runLoop d R = (do
      let b ← pyTake d (R.map (fun p => (p.1 : Int) - 1))
      let a ← pyTake d (R.map (fun p => (p.2 : Int)))
      let mids := R.map (fun p => roundHalf (p.2 + p.1))
      .ok (maskSel mids (List.zipWith (fun b a => decide (lit 0 < b) && decide (a < lit 0)) b a),
        maskSel mids (List.zipWith (fun b a => decide (b < lit 0) && decide (lit 0 < a)) b a))) := by
  induction R with
  | nil => rfl
  | cons p R ih =>
    obtain ⟨l, r⟩ := p
    simp only [runLoop, List.map_cons, pyTake, bind_assoc]
    rw [ih]
    simp only [bind, Except.bind, pure, Except.pure]
    cases hb : pyGet d ((l : Int) - 1) with
    | error e => rfl
    | ok lv =>
      simp only []
      cases ha : pyGet d (r : Int) with
      | error e =>
        have := pyGet_error ha
        subst this
        simp only []
        cases hB : pyTake d (R.map (fun p => (p.1 : Int) - 1)) with
        | error e => rw [pyTake_error hB]
        | ok B => rfl
      | ok rv =>
        simp only []
        cases hB : pyTake d (R.map (fun p => (p.1 : Int) - 1)) with
        | error e => rfl
        | ok B =>
          simp only []
          cases hA : pyTake d (R.map (fun p => (p.2 : Int))) with
          | error e => rfl
          | ok A =>
            simp only [List.zipWith_cons_cons, maskSel]
            rw [Nat.add_comm r l]
            by_cases h1 : lit 0 < lv ∧ rv < lit 0
            · rw [if_pos h1]
              have : ¬ (lv < lit 0) := has lv h1.1
              simp [h1.1, h1.2, this]
            · rw [if_neg h1]
              have e1 : (decide (lit 0 < lv) && decide (rv < lit 0)) = false := by
                rw [Bool.and_eq_false_iff, decide_eq_false_iff_not, decide_eq_false_iff_not]
                tauto
              rw [e1]
              by_cases h2 : lv < lit 0 ∧ lit 0 < rv
              · rw [if_pos h2]
                simp [h2.1, h2.2]
              · rw [if_neg h2]
                have e2 : (decide (lv < lit 0) && decide (lit 0 < rv)) = false := by
                  rw [Bool.and_eq_false_iff, decide_eq_false_iff_not, decide_eq_false_iff_not]
                  tauto
                rw [e2]
                rfl

theorem maskSel_any {β : Type} (l : List β) (m : List Bool) (h : l.length = m.length) :
    (m.any id = true) ↔ (maskSel l m).length > 0 := by
  induction l generalizing m with
  | nil => cases m with
    | nil => simp [maskSel]
    | cons b m => simp at h
  | cons x l ih => cases m with
    | nil => simp at h
    | cons b m =>
      cases b
      · simp only [List.any_cons, id, Bool.false_or, maskSel, Bool.false_eq_true, if_false]
        exact ih m (by simpa using h)
      · simp [maskSel]

theorem pyTake_length {β : Type} {l : List β} {idx : List Int} {xs : List β} (h : pyTake l idx = .ok xs) : xs.length = idx.length := by
  induction idx generalizing xs with
  | nil => cases h; rfl
  | cons i idx ih =>
    simp only [pyTake, bind_eq_ok, pure_eq_ok] at h
    obtain ⟨x, -, ys, hy, rfl⟩ := h
    simp [ih hy]

theorem extremaIdx_eq (has : ∀ x : α, lit 0 < x → ¬ x < lit 0) (S : List α) : extremaIdx S = EMD.extremaIdx S := by
  obtain ⟨R, h1, h2⟩ := usedRuns_eq S.length (npDiff S)
  unfold extremaIdx EMD.extremaIdx
  have z1 := zipWith_left (fun a b : α => decide (a * b < lit 0)) (fun a => decide (a < lit 0)) (npDiff S).dropLast (npDiff S).tail
  have z2 := zipWith_left (fun a b : α => decide (a * b < lit 0)) (fun a => decide (lit 0 < a)) (npDiff S).dropLast (npDiff S).tail
  have hz : (R.map (·.1)).zip (R.map (·.2)) = R := by
    rw [List.zip_map']
    exact List.map_id R
  simp only [z1, z2, h1, h2]
  split
  · rw [hz, runLoop_eq has]
    simp only [List.map_map, Function.comp_def, List.length_map]
    have hm : List.zipWith (fun f b => roundHalf (f + b)) (R.map (·.2)) (R.map (·.1)) = R.map (fun p => roundHalf (p.2 + p.1)) := by
      rw [List.zipWith_map]
      induction R with
      | nil => rfl
      | cons p R ih =>
        simp
    rw [hm]
    split
    · cases hB : pyTake (npDiff S) (R.map (fun p => (p.1 : Int) - 1)) with
      | error e => rfl
      | ok B =>
        cases hA : pyTake (npDiff S) (R.map (fun p => (p.2 : Int))) with
        | error e => rfl
        | ok A =>
          have lB := pyTake_length hB
          have lA := pyTake_length hA
          simp only [bind, Except.bind, pure, Except.pure]
          have k1 := maskSel_any (R.map (fun p => roundHalf (p.2 + p.1)))
            (List.zipWith (fun b a => decide (lit 0 < b) && decide (a < lit 0)) B A) (by simp [lA, lB])
          have k2 := maskSel_any (R.map (fun p => roundHalf (p.2 + p.1)))
            (List.zipWith (fun b a => decide (b < lit 0) && decide (lit 0 < a)) B A) (by simp [lA, lB])
          simp only [k1, k2]
    · next h =>
      have : R = [] := by
        rw [← List.length_eq_zero_iff]
        omega
      subst this
      rfl
  · rfl

/-- Positions on the integer timeline are the indices. -/
theorem pyTake_range {n : Nat} (S : List α) (hS : S.length = n) (idx : List Nat) :
    pyTake ((List.range n).map (fun k : Nat => (lit (k : ℚ) : α))) (idx.map (fun k : Nat => (k : Int))) =
      (pyTake S (idx.map (fun k : Nat => (k : Int))) >>= fun _ => .ok (idx.map (fun k : Nat => (lit (k : ℚ) : α)))) := by
  induction idx with
  | nil => rfl
  | cons k idx ih =>
    simp only [List.map_cons, pyTake]
    rw [ih]
    by_cases hk : k < n
    · have e1 : pyGet ((List.range n).map (fun k : Nat => (lit (k : ℚ) : α))) (k : Int) = .ok (lit (k : ℚ)) := by
        have : pyIdx ((List.range n).map (fun k : Nat => (lit (k : ℚ) : α))).length (k : Int) = some k := by
          unfold pyIdx
          simp [hk]
        unfold pyGet
        rw [this]
        simp [hk]
      have e2 : pyGet S (k : Int) = .ok (S[k]'(by omega)) := by
        have : pyIdx S.length (k : Int) = some k := by
          unfold pyIdx
          simp [hS, hk]
        unfold pyGet
        rw [this]
        simp [hS, hk]
      rw [e1, e2]
      cases pyTake S (idx.map (fun k : Nat => (k : Int))) <;> rfl
    · have e1 : pyGet ((List.range n).map (fun k : Nat => (lit (k : ℚ) : α))) (k : Int) = .error .indexError := by
        have : pyIdx ((List.range n).map (fun k : Nat => (lit (k : ℚ) : α))).length (k : Int) = none := by
          unfold pyIdx
          simp
          omega
        unfold pyGet
        rw [this]
      have e2 : pyGet S (k : Int) = .error .indexError := by
        have : pyIdx S.length (k : Int) = none := by
          unfold pyIdx
          simp
          omega
        unfold pyGet
        rw [this]
      rw [e1, e2]
      rfl

theorem findExtremaSimple_eq (has : ∀ x : α, lit 0 < x → ¬ x < lit 0) (S : List α) :
    findExtremaSimple S = EMD.findExtremaSimple ((List.range S.length).map (fun k : Nat => (lit (k : ℚ) : α))) S := by
  unfold findExtremaSimple EMD.findExtremaSimple
  rw [extremaIdx_eq has, zeroCrossings_eq]
  cases EMD.extremaIdx S with
  | error e => rfl
  | ok ii =>
    obtain ⟨imax, imin⟩ := ii
    simp only [bind, Except.bind]
    rw [pyTake_range S rfl, pyTake_range S rfl]
    simp only [bind, Except.bind]
    cases pyTake S (imax.map (fun k : Nat => (k : Int))) with
    | error e => rfl
    | ok mv =>
      simp only []
      cases pyTake S (imin.map (fun k : Nat => (k : Int))) with
      | error e => rfl
      | ok nv => rfl

end LawFree
end Jit
end PyEMD
