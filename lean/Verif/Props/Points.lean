import Verif.Lemmas.Points
import Verif.Spec.Points
import Verif.Props.Extrema

/-!
# Envelope knots in simple mode (C21)
-/

set_option linter.unusedSectionVars false

namespace PyEMD
namespace EMD
open Spec

variable {K : Type} [Field K] [LinearOrder K] [IsStrictOrderedRing K] [FloorRing K]

theorem sI_mem {S : List K} {i : Int} (h0 : 0 ≤ i) (h1 : i < S.length) : sI S i ∈ S := by
  unfold sI
  rw [getD_lt _ _ _ (by omega)]
  exact List.getElem_mem _

/-- From the mirroring guarantees to good knots. -/
theorem goodKnots {S : List K} {X : List Nat} {l r : List Int} {sl sr : Int}
    (sX : X.Pairwise (· < ·)) (rX : ∀ i ∈ X, i + 1 < S.length) (hpos : ∃ c ∈ X, 0 < c)
    (hl : LeftOK (X.map (fun k : Nat => (k : Int))) l sl) (hr : RightOK S.length (X.map (fun k : Nat => (k : Int))) r sr) :
    GoodKnots (timeArr S.length) S (X.map (fun k : Nat => (k : K))) (X.map (sAt S))
      (dropDupKnots (rawKnots S (X.map (fun k : Nat => (k : Int))) l r sl sr)) := by
  have hX : Lists S.length (X.map (fun k : Nat => (k : Int))) := by
    constructor
    · rw [List.pairwise_map]; exact sX.imp (fun h => by omega)
    · simp only [List.mem_map]
      rintro _ ⟨k, hk, rfl⟩
      have := rX k hk
      omega
  obtain ⟨c, hc, hc0⟩ := hpos
  have hn : 0 < S.length := by have := rX c hc; omega
  have nX : X.map (fun k : Nat => (k : Int)) ≠ [] := by
    rintro h
    rw [List.map_eq_nil_iff] at h
    rw [h] at hc; cases hc
  have hsort := rawKnots_sorted hX nX hl hr
  have hmem := dropDup_mem hsort
  have hinc := dropDup_sorted hsort
  -- head of the raw list
  have hraw : rawKnots S (X.map (fun k : Nat => (k : Int))) l r sl sr =
      (2 * (sl : K) - (l.head hl.ne : K), sI S (l.head hl.ne)) ::
        (l.tail.map (fun i : Int => (2 * (sl : K) - (i : K), sI S i)) ++ (X.map (fun k : Nat => (k : Int))).map (fun i : Int => ((i : K), sI S i)) ++
          r.map (fun i : Int => (2 * (sr : K) - (i : K), sI S i))) := by
    unfold rawKnots
    conv_lhs => rw [← List.cons_head_tail hl.ne]
    rfl
  obtain ⟨rest, hrest⟩ : ∃ rest, dropDupKnots (rawKnots S (X.map (fun k : Nat => (k : Int))) l r sl sr) =
      (2 * (sl : K) - (l.head hl.ne : K), sI S (l.head hl.ne)) :: rest := by
    rw [hraw] at hsort ⊢
    exact dropDup_head hsort
  have m1 : ((2 * (sl : K) - (l.head hl.ne : K), sI S (l.head hl.ne)) : K × K) ∈
      rawKnots S (X.map (fun k : Nat => (k : Int))) l r sl sr := by rw [hraw]; simp
  have m2 : (((c : Int) : K), sI S (c : Int)) ∈ rawKnots S (X.map (fun k : Nat => (k : Int))) l r sl sr := by
    unfold rawKnots
    simp only [List.mem_append]
    exact .inl (.inr (List.mem_map_of_mem (f := fun i : Int => ((i : K), sI S i)) (List.mem_map_of_mem hc)))
  have m3 : ((2 * (sr : K) - (r.getLast hr.ne : K), sI S (r.getLast hr.ne)) : K × K) ∈
      rawKnots S (X.map (fun k : Nat => (k : Int))) l r sl sr := by
    unfold rawKnots
    simp only [List.mem_append]
    exact .inr (List.mem_map_of_mem (f := fun i : Int => (2 * (sr : K) - (i : K), sI S i)) (List.getLast_mem hr.ne))
  have l12 : (2 * (sl : K) - (l.head hl.ne : K)) < ((c : Int) : K) := by
    rw [cast_mir, Int.cast_lt]
    have := hl.head; omega
  have l23 : ((c : Int) : K) < 2 * (sr : K) - (r.getLast hr.ne : K) := by
    rw [cast_mir, Int.cast_lt]
    have := hr.last; have := rX c hc; omega
  constructor
  · have h1 := (hmem _).2 m1
    have h2 := (hmem _).2 m2
    have h3 := (hmem _).2 m3
    rw [hrest] at h2 h3 ⊢
    have h2' : (((c : Int) : K), sI S (c : Int)) ∈ rest := by
      rcases List.mem_cons.1 h2 with h | h
      · exact absurd (congrArg Prod.fst h) l12.ne'
      · exact h
    have h3' : ((2 * (sr : K) - (r.getLast hr.ne : K), sI S (r.getLast hr.ne)) : K × K) ∈ rest := by
      rcases List.mem_cons.1 h3 with h | h
      · exact absurd (congrArg Prod.fst h) (l12.trans l23).ne'
      · exact h
    match rest, h2', h3' with
    | [x], h2', h3' =>
      simp only [List.mem_singleton] at h2' h3'
      exact absurd (congrArg Prod.fst (h2'.trans h3'.symm)) l23.ne
    | _ :: _ :: _, _, _ => simp
  · exact hinc
  · refine ⟨_, 0, by rw [hrest]; rfl, ?_, ?_⟩
    · obtain ⟨n, hn'⟩ : ∃ n, S.length = n + 1 := ⟨S.length - 1, by omega⟩
      rw [hn']
      simp [timeArr, List.range_succ_eq_map]
    · have : (2 * (sl : K) - (l.head hl.ne : K)) ≤ ((0 : Int) : K) := by
        rw [cast_mir, Int.cast_le]; exact hl.head
      simpa using this
  · have hne : dropDupKnots (rawKnots S (X.map (fun k : Nat => (k : Int))) l r sl sr) ≠ [] := by rw [hrest]; simp
    refine ⟨_, ((S.length - 1 : Nat) : K), List.getLast?_eq_some_getLast hne, ?_, ?_⟩
    · obtain ⟨n, hn'⟩ : ∃ n, S.length = n + 1 := ⟨S.length - 1, by omega⟩
      rw [hn']
      simp [timeArr, List.range_succ]
    · have h3 := (hmem _).2 m3
      have hge : 2 * (sr : K) - (r.getLast hr.ne : K) ≤
          ((dropDupKnots (rawKnots S (X.map (fun k : Nat => (k : Int))) l r sl sr)).getLast hne).1 := by
        have e := List.dropLast_append_getLast hne
        have hi := hinc
        rw [← e] at h3 hi
        rw [List.pairwise_append] at hi
        rcases List.mem_append.1 h3 with h | h
        · exact (hi.2.2 _ h _ (by simp)).le
        · simp only [List.mem_singleton] at h
          exact (congrArg Prod.fst h).le
      refine le_trans ?_ hge
      have : (((S.length : Int) - 1 : Int) : K) ≤ 2 * (sr : K) - (r.getLast hr.ne : K) := by
        rw [cast_mir, Int.cast_le]; exact hr.last
      rw [Nat.cast_sub (by omega)]
      simpa using this
  · intro p hp
    rw [zip_maps, List.mem_map] at hp
    obtain ⟨k, hk, rfl⟩ := hp
    rw [hmem]
    unfold rawKnots
    simp only [List.mem_append]
    refine .inl (.inr ?_)
    rw [List.map_map, List.mem_map]
    exact ⟨k, hk, by simp [sI, sAt]⟩
  · intro p hp
    rw [hmem] at hp
    unfold rawKnots at hp
    simp only [List.mem_append, List.mem_map] at hp
    rcases hp with (⟨i, hi, rfl⟩ | ⟨i, ⟨k, hk, rfl⟩, rfl⟩) | ⟨i, hi, rfl⟩
    · have := hX.rng hl.mem hn i hi
      exact sI_mem this.1 this.2
    · have := rX k hk
      exact sI_mem (by omega) (by omega)
    · have := hX.rng' hr.mem hn i hi
      exact sI_mem this.1 this.2

/-- C21: with simple detection on the time stamps 0, 1, ..., `nbsym ≥ 1` and at least three reported extrema,
`prepare_points` returns good knots for the maxima and for the minima (in particular it raises no exception). -/
theorem C21_knots (nbsym : Int) (hnb : 1 ≤ nbsym) (S T : List K) (hT : T = (List.range S.length).map (fun k : Nat => (k : K)))
    (e : Extrema K) (he : findExtrema .simple T S = .ok e) (h3 : 3 ≤ e.maxPos.length + e.minPos.length) :
    ∃ kmax kmin, preparePoints .simple nbsym T S e = .ok (kmax, kmin) ∧
      GoodKnots T S e.maxPos e.maxVal kmax ∧ GoodKnots T S e.minPos e.minVal kmin := by
  have hT' : T = timeArr S.length := hT
  subst hT'
  have he' := findExtremaSimple_eq (timeArr S.length : List K) S (timeArr_length _)
  rw [show findExtrema .simple (timeArr S.length : List K) S = _ from he'] at he
  injection he with he
  subst he
  simp only [List.length_map] at h3
  have rA : ∀ i ∈ reported isPos isNeg S, i + 1 < S.length := fun i hi => reported_lt isPos_zero isNeg_zero hi
  have rB : ∀ i ∈ reported isNeg isPos S, i + 1 < S.length := fun i hi => reported_lt isNeg_zero isPos_zero hi
  have sA := (reported_spec isPos isNeg isPos_zero isNeg_zero S).1
  have sB := (reported_spec isNeg isPos isNeg_zero isPos_zero S).1
  have posT : ∀ X : List Nat, (∀ i ∈ X, i + 1 < S.length) → X.map (sAt (timeArr S.length : List K)) = X.map (fun k : Nat => (k : K)) := by
    intro X hX
    apply List.map_congr_left
    intro i hi
    have := hX i hi
    have h := timeArr_getD (K := K) S.length (i : Int) (by omega) (by omega)
    simpa [sAt] using h
  have hd : ∀ i ∈ reported isPos isNeg S, i ∉ reported isNeg isPos S := fun i hi => maxima_minima_disjoint hi
  obtain ⟨lx, rx, ln, rn, sl, sr, e1, o1, o2, o3, o4, -⟩ := preparePointsSimple_ok nbsym hnb S _ _ sA sB rA rB hd
    (fun a ha a' ha' => maxima_alternate ha ha') (fun a ha a' ha' => minima_alternate ha ha') h3
  have l1 := length_le_of_between sA (fun a ha a' ha' => maxima_alternate ha ha')
  have l2 := length_le_of_between sB (fun a ha a' ha' => minima_alternate ha ha')
  -- a positive index of each kind
  have pos : ∀ X Y : List Nat, X.Pairwise (· < ·) → Y.Pairwise (· < ·) → 1 ≤ X.length → 3 ≤ X.length + Y.length →
      (∀ a ∈ Y, ∀ a' ∈ Y, a < a' → ∃ b ∈ X, a < b ∧ b < a') → ∃ c ∈ X, 0 < c := by
    intro X Y sX sY h1 h2 alt
    match X, Y, h1, h2, sX, sY, alt with
    | _ :: x' :: _, _, _, _, sX, _, _ =>
      exact ⟨x', by simp, by have := (List.pairwise_cons.1 sX).1 x' (by simp); omega⟩
    | [x], y :: y' :: _, _, _, _, sY, alt =>
      obtain ⟨b, hb, h3, -⟩ := alt y (by simp) y' (by simp) ((List.pairwise_cons.1 sY).1 y' (by simp))
      exact ⟨b, hb, by omega⟩
    | [x], [], _, h2, _, _, _ => simp at h2
    | [x], [y], _, h2, _, _, _ => simp at h2
  have g1 := goodKnots sA rA (pos _ _ sA sB (by omega) h3 (fun a ha a' ha' => minima_alternate ha ha')) o1 o3
  have g2 := goodKnots sB rB (pos _ _ sB sA (by omega) (by omega) (fun a ha a' ha' => maxima_alternate ha ha')) o2 o4
  unfold preparePoints
  simp only [posT _ rA, posT _ rB]
  exact ⟨_, _, e1, g1, g2⟩

/-- Nine extrema; the first knots are mirrored over the first extremum on the left. -/
example : okWith (fun k : List (ℚ × ℚ) × List (ℚ × ℚ) =>
      decide (k = ([(-3, 5), (-1, 2), (1, 3), (3, 2), (5, 5), (7, 4), (9, 4), (11, 5)],
        [(-2, -2), (0, -1), (2, -1), (4, -2), (6, 1), (8, 0), (10, 1), (12, -2)])))
    (preparePoints .simple 2 (timeArr 10) sampleS
      { maxPos := [1, 3, 5, 7], maxVal := [3, 2, 5, 4], minPos := [2, 4, 6, 8], minVal := [-1, -2, 1, 0], indzer := [] }) = true := by
  decide +kernel

end EMD
end PyEMD
