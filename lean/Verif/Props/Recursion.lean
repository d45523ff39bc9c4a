import Verif.Props.Truncation
import Verif.Props.EmdExact
import Verif.Lemmas.Exact
import Mathlib.Tactic.Ring

/-!
# C88: the later components are the decomposition of what the earlier ones leave
-/

set_option linter.unusedSectionVars false

namespace PyEMD
namespace EMD
open Spec

variable {K : Type} [Field K] [LinearOrder K] [IsStrictOrderedRing K] [FloorRing K]

/-- The limit that remains after `j` components; none stays none. -/
def limitAfter (m : Int) (j : Nat) : Int := if m ≤ 0 then m else m - j

theorem foldl_add_init (l : List K) (a : K) : l.foldl (· + ·) a = a + l.foldl (· + ·) 0 := by
  induction l generalizing a with
  | nil => simp
  | cons x l ih => rw [List.foldl_cons, List.foldl_cons, ih, ih (0 + x)]; ring

theorem colSum_append (A B : List (List K)) (i : Nat) : colSum (A ++ B) i = colSum A i + colSum B i := by
  unfold colSum
  rw [List.map_append, List.foldl_append, foldl_add_init, lit_zero]

/-- What is left after `A ++ B` is what `B` leaves of what `A` leaves. -/
theorem vsub_append (S : List K) (A B : List (List K)) (hA : ∀ r ∈ A, r.length = S.length) (hB : ∀ r ∈ B, r.length = S.length) :
    vsub S (sumRows S.length (A ++ B)) =
      vsub (vsub S (sumRows S.length A)) (sumRows (vsub S (sumRows S.length A)).length B) := by
  have hAB : ∀ r ∈ A ++ B, r.length = S.length := by
    intro r hr
    rcases List.mem_append.1 hr with h | h
    · exact hA r h
    · exact hB r h
  have hl : (vsub S (sumRows S.length A)).length = S.length := by
    rw [length_vsub, length_sumRows _ _ hA, Nat.min_self]
  rw [hl]
  apply List.ext_getElem?
  intro i
  by_cases hi : i < S.length
  · have h1 := sumRows_getElem? _ _ hAB i hi
    have h2 := sumRows_getElem? _ _ hA i hi
    have h3 := sumRows_getElem? _ _ hB i hi
    have hs : S[i]? = some S[i] := List.getElem?_eq_getElem hi
    rw [vsub_getElem? _ _ _ _ _ hs h1, vsub_getElem? _ _ _ _ _ (vsub_getElem? _ _ _ _ _ hs h2) h3, colSum_append]
    congr 1
    ring
  · rw [List.getElem?_eq_none, List.getElem?_eq_none]
    · rw [length_vsub, length_vsub, length_sumRows _ _ hA, length_sumRows _ _ hB]; omega
    · rw [length_vsub, length_sumRows _ _ hAB]; omega

theorem prepareTime_congr (cfg : Cfg K) {S S' : List K} (h : S'.length = S.length) (T : Option (List K)) :
    prepareTime cfg S' T = prepareTime cfg S T := by
  unfold prepareTime
  rw [h]

/-- The sifting of an IMF does not depend on the number of extrema found before, when it may do anything at all. -/
theorem siftLoop_extNo_irrelevant (sp : SciPy K) (cfg : Cfg K) (hM : 2 ≤ cfg.MAX_ITERATION) (T x : List K) (fuel : Nat) (e e' : Int) :
    siftLoop sp cfg T fuel { n := 0, nh := 0, extNo := e, imf := x, subs := 0 } =
      siftLoop sp cfg T fuel { n := 0, nh := 0, extNo := e', imf := x, subs := 0 } := by
  cases fuel with
  | zero => rfl
  | succ fuel =>
    have : siftBody sp cfg T { n := 0, nh := 0, extNo := e, imf := x, subs := 0 } =
        siftBody sp cfg T { n := 0, nh := 0, extNo := e', imf := x, subs := 0 } := by
      unfold siftBody
      dsimp only
      rw [if_neg (by omega), if_neg (by omega)]
    rw [siftLoop, siftLoop, this]

theorem emdLoop_extNo_irrelevant (sp : SciPy K) (cfg : Cfg K) (hM : 2 ≤ cfg.MAX_ITERATION) (T S : List K) (m : Int) (fuel : Nat)
    (rounds : List (Round K)) (e e' : Int) : emdLoop sp cfg T S m fuel rounds e = emdLoop sp cfg T S m fuel rounds e' := by
  cases fuel with
  | zero => rfl
  | succ fuel =>
    rw [emdLoop, emdLoop]
    unfold emdRound
    dsimp only
    rw [siftLoop_extNo_irrelevant sp cfg hM T _ _ e e']

/-- The loop that has found the components `A` goes on as the loop on what they leave. -/
theorem emdLoop_shift {sp : SciPy K} {cfg : Cfg K} {T S : List K} {m : Int} (A : List (Round K))
    (hA : ∀ r ∈ A, r.imf.length = S.length) (hm : m ≤ 0 ∨ (A.length : Int) < m) (fuel : Nat) {B out : List (Round K)} {e e1 : Int}
    (hout : ∀ r ∈ out, r.imf.length = S.length) (h : emdLoop sp cfg T S m fuel (A ++ B) e = .ok (out, e1)) :
    ∃ D, out = A ++ D ∧
      emdLoop sp cfg T (vsub S (sumRows S.length (A.map (·.imf)))) (limitAfter m A.length) fuel B e = .ok (D, e1) := by
  induction fuel generalizing B e with
  | zero => simp [emdLoop] at h
  | succ fuel ih =>
    have hAm : ∀ r ∈ A.map (·.imf), r.length = S.length := by
      intro r hr
      obtain ⟨q, hq, rfl⟩ := List.mem_map.1 hr
      exact hA q hq
    have hpre : ∃ t, out = A ++ B ++ t := by
      clear ih hout
      obtain ⟨r, t, ht⟩ := emdLoop_extends _ h
      exact ⟨_, ht⟩
    have hBm : ∀ r ∈ B.map (·.imf), r.length = S.length := by
      intro r hr
      obtain ⟨q, hq, rfl⟩ := List.mem_map.1 hr
      obtain ⟨t, rfl⟩ := hpre
      exact hout q (by simp [hq])
    rw [emdLoop, bind_eq_ok] at h
    obtain ⟨⟨s, why⟩, hr, h⟩ := h
    dsimp only at h
    rw [bind_eq_ok] at h
    obtain ⟨fin, hfin, h⟩ := h
    have hr' : emdRound sp cfg T (vsub S (sumRows S.length (A.map (·.imf)))) (B.map (·.imf)) e = .ok (s, why) := by
      rw [← hr]
      unfold emdRound
      rw [List.map_append, vsub_append S _ _ hAm hBm]
    obtain ⟨R, hR⟩ : ∃ R : Round K, R = { imf := s.imf, why, subs := s.subs, nh := s.nh } := ⟨_, rfl⟩
    rw [← hR] at h hfin
    have hRl : R.imf.length = S.length := by
      have : R ∈ out := by
        split at h
        · rw [pure_eq_ok, Prod.mk.injEq] at h
          rw [← h.1]
          simp
        · obtain ⟨r, t, ht⟩ := emdLoop_extends _ h
          rw [ht]
          simp
      exact hout R this
    have hfin' : endCondition cfg (vsub S (sumRows S.length (A.map (·.imf)))) ((B ++ [R]).map (·.imf)) = .ok fin := by
      rw [← hfin]
      unfold endCondition
      rw [List.append_assoc, List.map_append (l₁ := A), vsub_append S _ _ hAm]
      intro r hr
      obtain ⟨q, hq, rfl⟩ := List.mem_map.1 hr
      rcases List.mem_append.1 hq with hq | hq
      · exact hBm _ (List.mem_map_of_mem hq)
      · rw [List.mem_singleton.1 hq]; exact hRl
    have hlim : decide (((B ++ [R]).length : Int) = limitAfter m A.length) = decide (((A ++ B ++ [R]).length : Int) = m) := by
      unfold limitAfter
      simp only [List.length_append, List.length_singleton, decide_eq_decide]
      split <;> constructor <;> intro h <;> push_cast at h ⊢ <;> omega
    have heq : emdLoop sp cfg T (vsub S (sumRows S.length (A.map (·.imf)))) (limitAfter m A.length) (fuel + 1) B e =
        if (fin || decide (((B ++ [R]).length : Int) = limitAfter m A.length) || why == .trend) = true
        then .ok (B ++ [R], s.extNo)
        else emdLoop sp cfg T (vsub S (sumRows S.length (A.map (·.imf)))) (limitAfter m A.length) fuel (B ++ [R]) s.extNo := by
      rw [emdLoop, hr']
      show (endCondition _ _ _ >>= _) = _
      rw [← hR, hfin']
      rfl
    rw [heq]
    rw [hlim]
    split at h
    · rename_i hc
      rw [pure_eq_ok, Prod.mk.injEq] at h
      rw [if_pos hc]
      refine ⟨B ++ [R], by rw [← h.1, List.append_assoc], ?_⟩
      rw [← h.2]
    · rename_i hc
      rw [if_neg hc]
      rw [List.append_assoc] at h
      exact ih h

/-- The loop that returns `rs` has passed through each of its beginnings. -/
theorem emdLoop_passes {sp : SciPy K} {cfg : Cfg K} {T S : List K} {m : Int} (fuel : Nat) {rounds rs : List (Round K)} {e e1 : Int}
    (h : emdLoop sp cfg T S m fuel rounds e = .ok (rs, e1)) (j : Nat) (h1 : rounds.length ≤ j) (h2 : j < rs.length) :
    ∃ fuel' e', fuel' ≤ fuel ∧ emdLoop sp cfg T S m fuel' (rs.take j) e' = .ok (rs, e1) := by
  induction fuel generalizing rounds e with
  | zero => simp [emdLoop] at h
  | succ fuel ih =>
    rcases Nat.eq_or_lt_of_le h1 with h1 | h1
    · refine ⟨fuel + 1, e, le_rfl, ?_⟩
      obtain ⟨r, t, ht⟩ := emdLoop_extends _ h
      have : rs.take j = rounds := by rw [ht, ← h1, List.take_left]
      rw [this]
      exact h
    · rw [emdLoop, bind_eq_ok] at h
      obtain ⟨⟨s, why⟩, hr, h⟩ := h
      dsimp only at h
      rw [bind_eq_ok] at h
      obtain ⟨fin, hfin, h⟩ := h
      split at h
      · rw [pure_eq_ok, Prod.mk.injEq] at h
        rw [← h.1] at h2
        simp at h2
        omega
      · obtain ⟨f', e', hf, h'⟩ := ih h (by simp; omega)
        exact ⟨f', e', by omega, h'⟩

theorem finish_shift (S : List K) (A B : List (List K)) (hA : ∀ r ∈ A, r.length = S.length) (hB : ∀ r ∈ B, r.length = S.length)
    (hne : B ≠ []) (e : Int) : finish (vsub S (sumRows S.length A)) B e =
      { rows := (finish S (A ++ B) e).rows.drop A.length, imfs := (finish S (A ++ B) e).imfs.drop A.length,
        residue := (finish S (A ++ B) e).residue } := by
  have hd : (if e ≤ 2 then (A ++ B).dropLast else A ++ B) = A ++ (if e ≤ 2 then B.dropLast else B) := by
    split
    · exact List.dropLast_append_of_ne_nil hne
    · rfl
  have hB' : ∀ r ∈ (if e ≤ 2 then B.dropLast else B), r.length = S.length := by
    intro r hr
    split at hr
    · exact hB r (List.dropLast_subset _ hr)
    · exact hB r hr
  unfold finish
  simp only [hd, vsub_append S A _ hA hB', List.drop_left]
  congr 1
  generalize (if e ≤ 2 then B.dropLast else B) = D
  by_cases hc : allclose0 (vsub (vsub S (sumRows S.length A)) (sumRows (vsub S (sumRows S.length A)).length D)) = true
  · rw [if_pos hc, if_pos hc, List.drop_left]
  · rw [if_neg hc, if_neg hc, List.append_assoc, List.drop_left]

theorem isResidue_unique {S : List K} {rows : List (List K)} {r r' : List K} (h : IsResidue S rows r) (h' : IsResidue S rows r') :
    r = r' := by
  apply List.ext_getElem?
  intro i
  by_cases hi : i < S.length
  · obtain ⟨s, hs, h1⟩ := h.2 i hi
    obtain ⟨s', hs', h2⟩ := h'.2 i hi
    rw [hs] at hs'
    cases hs'
    rw [h1, h2]
  · rw [List.getElem?_eq_none (by rw [h.1]; omega), List.getElem?_eq_none (by rw [h'.1]; omega)]

/-- **C88.**  Take the first `j` components away from the signal: the decomposition of the rest consists of the remaining components,
with the same residue, in every mode and with the correspondingly smaller limit.  At least one component has to remain. -/
theorem C88_recursion (fuel : Nat) (sp : SciPy K) (cfg : Cfg K) (hM : 2 ≤ cfg.MAX_ITERATION) (S : List K) (T : Option (List K)) (m : Int)
    (R : Result K) (h : emdPure fuel sp cfg S T m = .ok R) (j : Nat) (hj : j < R.imfs.length) (S' : List K)
    (hS : IsResidue S (R.imfs.take j) S') :
    emdPure fuel sp cfg S' T (limitAfter m j) =
      .ok { rows := R.rows.drop j, imfs := R.imfs.drop j, residue := R.residue } := by
  obtain ⟨T', rs, e1, hT, hr, hp, rfl⟩ := emdPure_post h
  have hloop : emdLoop sp cfg T' S m fuel [] (-1) = .ok (rs, e1) := by
    unfold emdRounds at hr
    rw [hT] at hr
    exact hr
  have hlen := hp.length
  have hjr : j < rs.length := by
    have := (finish_imfs_prefix S (rs.map (·.imf)) e1).2
    rw [List.length_map] at this
    omega
  obtain ⟨f', e', hf, h1⟩ := emdLoop_passes fuel hloop j (by simp) hjr
  have hA : ∀ r ∈ rs.take j, r.imf.length = S.length := fun r hr => hlen r (List.mem_of_mem_take hr)
  have hAl : (rs.take j).length = j := by simp; omega
  have hm : m ≤ 0 ∨ ((rs.take j).length : Int) < m := by
    rcases lt_or_ge 0 m with hm | hm
    · right
      have := hp.length_le hm
      omega
    · exact .inl hm
  obtain ⟨D, hD, h2⟩ := emdLoop_shift (rs.take j) hA hm f' (B := []) hlen (by simpa using h1)
  have hDe : D = rs.drop j := by
    have := hD
    nth_rw 1 [← List.take_append_drop j rs] at this
    exact (List.append_cancel_left this).symm
  have htake : (finish S (rs.map (·.imf)) e1).imfs.take j = (rs.take j).map (·.imf) := by
    rw [(finish_imfs_prefix S (rs.map (·.imf)) e1).1, List.take_take, List.map_take]
    congr 1
    omega
  have hSe : S' = vsub S (sumRows S.length ((rs.take j).map (·.imf))) := by
    rw [← htake]
    have hl2 : ∀ r ∈ (finish S (rs.map (·.imf)) e1).imfs.take j, r.length = S.length := by
      rw [htake]
      intro r hr
      obtain ⟨q, hq, rfl⟩ := List.mem_map.1 hr
      exact hA q hq
    exact isResidue_unique hS (isResidue_vsub S _ hl2)
  have hAm : ∀ r ∈ (rs.take j).map (·.imf), r.length = S.length := by
    intro r hr
    obtain ⟨q, hq, rfl⟩ := List.mem_map.1 hr
    exact hA q hq
  have hBm : ∀ r ∈ (rs.drop j).map (·.imf), r.length = S.length := by
    intro r hr
    obtain ⟨q, hq, rfl⟩ := List.mem_map.1 hr
    exact hlen q (List.mem_of_mem_drop hq)
  have hl' : S'.length = S.length := by
    rw [hSe, length_vsub, length_sumRows _ _ hAm, Nat.min_self]
  have h3 : emdLoop sp cfg T' S' (limitAfter m j) fuel [] (-1) = .ok (D, e1) := by
    rw [emdLoop_extNo_irrelevant sp cfg hM T' S' (limitAfter m j) fuel [] (-1) e', hSe, ← h2, hAl]
    refine emdLoop_mono sp cfg T' _ _ f' fuel _ _ hf ?_
    rw [hAl] at h2
    rw [h2]
    simp [NoFuel]
  unfold emdPure emdRounds
  rw [prepareTime_congr cfg hl', hT]
  show (emdLoop sp cfg T' S' (limitAfter m j) fuel [] (-1) >>= _) = _
  rw [h3]
  show Except.ok (finish S' (D.map (·.imf)) e1) = _
  rw [hSe, hDe, finish_shift S _ _ hAm hBm (by simp; omega) e1, ← List.map_append, List.take_append_drop, List.length_map, hAl]

/-- The sample has two components; without the first one, one component is left, and it is the second. -/
example : okWith (fun R => R.imfs.length == 2 &&
      okWith (fun R' => R'.imfs == R.imfs.drop 1 && R'.residue == R.residue && R'.rows == R.rows.drop 1)
        (emdPure 20 linSciPy sampleFixe (vsub sampleS (sumRows sampleS.length (R.imfs.take 1))) none (limitAfter (-1) 1)))
    (emdPure 20 linSciPy sampleFixe sampleS none (-1)) = true ∧ (2 : Int) ≤ sampleFixe.MAX_ITERATION := by decide +kernel

end EMD
end PyEMD
