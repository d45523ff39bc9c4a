import Verif.Props.Matlab
import Verif.Props.NoRaise
import Verif.Lemmas.PointsTime

/-!
# `EMD_matlab` raises no exception (C106)
-/

set_option linter.unusedSectionVars false

namespace PyEMD
namespace Matlab
open EMD (Extrema SplineKind sAt dAt dBefore isPos isNeg jumps flats reported Block sI Lists LeftT RightT)
open EMD.Spec PyEMD.Spec

variable {K : Type} [Field K] [LinearOrder K] [IsStrictOrderedRing K] [FloorRing K]

/-! ## Detection, for all signals -/

/-- Not positive. -/
def notPos (x : K) : Bool := !isPos x

theorem runLoop_flats (S : List K) (R : List (Nat × Nat)) (h : ∀ p ∈ R, p ∈ EMD.usedRuns S) :
    runLoop (npDiff S) R = .ok
      ((R.filter (fun p => isPos (dBefore S p.1) && isNeg (dAt S p.2))).map (fun p => roundHalf (p.2 + p.1)),
        (R.filter (fun p => notPos (dBefore S p.1) && isPos (dAt S p.2))).map (fun p => roundHalf (p.2 + p.1))) := by
  induction R with
  | nil => rfl
  | cons p R ih =>
    obtain ⟨b, f⟩ := p
    have hp := h (b, f) (by simp)
    unfold runLoop
    rw [EMD.pyGet_dBefore hp, EMD.pyGet_dAfter hp, ih (fun q hq => h q (by simp [hq]))]
    simp only [bind, Except.bind, pure, Except.pure, lit_zero, List.filter_cons, notPos, isPos, isNeg]
    by_cases h1 : 0 < dBefore S b
    · by_cases h2 : dAt S f < 0 <;> simp [h1, h2]
    · by_cases h2 : 0 < dAt S f <;> simp [h1, h2]

/-- The minima: as in the reference, and the middle of a flat start that is followed by a rise, if the signal ends flat. -/
def minima (S : List K) : List Nat :=
  if (flats notPos isPos S).isEmpty then jumps isNeg isPos S else npSort (jumps isNeg isPos S ++ flats notPos isPos S)

theorem extremaIdx_all (S : List K) : extremaIdx S = .ok (reported isPos isNeg S, minima S) := by
  have hmin : (nonzero (List.zipWith (fun a b => decide (a * b < lit 0) && decide (a < lit 0)) (npDiff S).dropLast (npDiff S).tail)).map (· + 1)
      = jumps isNeg isPos S := by
    unfold jumps
    congr 3
    funext a b
    rw [Bool.eq_iff_iff]
    simp only [lit_zero, isNeg, isPos, Bool.and_eq_true, decide_eq_true_eq]
    constructor
    · rintro ⟨h1, h2⟩
      exact ⟨h2, by rcases mul_neg_iff.1 h1 with h | h <;> [exact absurd h.1 (not_lt.2 h2.le); exact h.2]⟩
    · rintro ⟨h1, h2⟩
      exact ⟨mul_neg_of_neg_of_pos h1 h2, h1⟩
  have hmax : (nonzero (List.zipWith (fun a b => decide (a * b < lit 0) && decide (lit 0 < a)) (npDiff S).dropLast (npDiff S).tail)).map (· + 1)
      = jumps isPos isNeg S := by
    unfold jumps
    congr 3
    funext a b
    rw [Bool.eq_iff_iff]
    simp only [lit_zero, isNeg, isPos, Bool.and_eq_true, decide_eq_true_eq]
    constructor
    · rintro ⟨h1, h2⟩
      exact ⟨h2, by rcases mul_neg_iff.1 h1 with h | h <;> [exact h.2; exact absurd h.1 (not_lt.2 h2.le)]⟩
    · rintro ⟨h1, h2⟩
      exact ⟨mul_neg_of_pos_of_neg h1 h2, h1⟩
  have hz : ((EMD.usedRuns S).map (·.1)).zip ((EMD.usedRuns S).map (·.2)) = EMD.usedRuns S := by
    rw [List.zip_map']
    exact List.map_id _
  unfold extremaIdx
  simp only [hmin, hmax]
  by_cases hany : (npDiff S).any (fun x => x == lit 0) = true
  · rw [if_pos hany, usedRuns_eq, EMD.usedRuns_eq]
    simp only [hz]
    rw [runLoop_flats S _ (fun p hp => hp)]
    simp only [bind, Except.bind, pure, Except.pure]
    change Except.ok (if (flats isPos isNeg S).length > 0 then npSort (jumps isPos isNeg S ++ flats isPos isNeg S) else jumps isPos isNeg S,
      if (flats notPos isPos S).length > 0 then npSort (jumps isNeg isPos S ++ flats notPos isPos S) else jumps isNeg isPos S) = _
    unfold reported minima
    cases flats isPos isNeg S <;> cases flats notPos isPos S <;> rfl
  · rw [if_neg hany]
    have h0 : EMD.usedRuns S = [] := by
      rw [List.eq_nil_iff_forall_not_mem]
      rintro ⟨s, e⟩ hp
      obtain ⟨h1, h2, h3, -⟩ := EMD.mem_usedRuns.1 hp
      apply hany
      rw [List.any_eq_true]
      have hz := h3 s (le_refl _) h1
      have hmem := List.mem_of_getElem? (EMD.getElem?_dAt (S := S) (i := s) (by omega))
      exact ⟨_, hmem, by simp [hz]⟩
    unfold reported minima flats
    rw [h0]
    rfl

theorem minima_spec (S : List K) : (minima S).Pairwise (· < ·) ∧ ∀ m, m ∈ minima S ↔ m ∈ jumps isNeg isPos S ∨ m ∈ flats notPos isPos S := by
  have := merge_spec (jumps isNeg isPos S) (flats notPos isPos S) (!(flats notPos isPos S).isEmpty) (by simp)
    (EMD.jumps_sorted _ _ S) (EMD.flats_sorted _ _ S) (fun a ha => EMD.jumps_disjoint_flats EMD.isNeg_zero EMD.isPos_zero ha)
  unfold minima
  cases h : (flats (notPos : K → Bool) isPos S).isEmpty <;> simpa [h] using this

theorem minima_block {S : List K} {m : Nat} (h : m ∈ minima S) : Block isNeg isPos S m := by
  rcases ((minima_spec S).2 m).1 h with h | h
  · exact EMD.reported_block EMD.isNeg_zero EMD.isPos_zero (((EMD.reported_spec isNeg isPos EMD.isNeg_zero EMD.isPos_zero S).2 m).2 (.inl h))
  · obtain ⟨s, e, hr, hb, ha, rfl⟩ := EMD.mem_flats.1 h
    obtain ⟨g1, g2, g3, g4, g5, g6⟩ := EMD.mem_usedRuns.1 hr
    refine ⟨s, e, rfl, g1.le, by omega, g2, g3, ha, ?_⟩
    by_cases hs : s = 0
    · exact .inl hs
    · right
      have g4' := g4.resolve_left hs
      rw [dBefore, if_neg hs] at hb
      simp only [notPos, isPos, Bool.not_eq_true', decide_eq_false_iff_not, not_lt] at hb
      simp only [isNeg, decide_eq_true_eq]
      exact lt_of_le_of_ne hb g4'

theorem reported_minima {S : List K} {m : Nat} (h : m ∈ reported isNeg isPos S) : m ∈ minima S := by
  rw [(minima_spec S).2]
  rcases ((EMD.reported_spec isNeg isPos EMD.isNeg_zero EMD.isPos_zero S).2 m).1 h with h | h
  · exact .inl h
  · right
    obtain ⟨s, e, hr, hb, ha, rfl⟩ := EMD.mem_flats.1 h
    refine EMD.mem_flats.2 ⟨s, e, hr, ?_, ha, rfl⟩
    simp only [isNeg, decide_eq_true_eq] at hb
    simp only [notPos, isPos, Bool.not_eq_true', decide_eq_false_iff_not, not_lt]
    exact hb.le

theorem block_lt {P Q : K → Bool} {S : List K} {m : Nat} (h : Block P Q S m) : m + 1 < S.length := by
  obtain ⟨l, r, rfl, h1, h2, h3, -⟩ := h
  have := roundHalf_mem h1
  omega

theorem maxima_between {S : List K} {m m' : Nat} (h : m ∈ minima S) (h' : m' ∈ minima S) (hlt : m < m') :
    ∃ c ∈ reported isPos isNeg S, m < c ∧ c < m' :=
  EMD.block_alternate EMD.isNeg_zero EMD.isPos_zero (fun x => by rcases EMD.pos_neg_zero x with h | h | h <;> simp [h])
    (fun x h h' => EMD.pos_neg_disjoint x h' h) (minima_block h) (minima_block h') hlt

theorem minima_between {S : List K} {m m' : Nat} (h : m ∈ reported isPos isNeg S) (h' : m' ∈ reported isPos isNeg S) (hlt : m < m') :
    ∃ c ∈ minima S, m < c ∧ c < m' := by
  obtain ⟨c, hc, h1⟩ := EMD.maxima_alternate h h' hlt
  exact ⟨c, reported_minima hc, h1⟩

theorem maxima_not_minima {S : List K} {m : Nat} (h : m ∈ reported isPos isNeg S) : m ∉ minima S :=
  fun h' => EMD.block_disjoint EMD.isPos_zero EMD.isNeg_zero EMD.pos_neg_disjoint (EMD.reported_block EMD.isPos_zero EMD.isNeg_zero h) (minima_block h')

theorem findExtrema_all (T S : List K) (hT : T.length = S.length) :
    findExtrema T S = .ok
      { maxPos := (reported isPos isNeg S).map (sAt T), maxVal := (reported isPos isNeg S).map (sAt S)
        minPos := (minima S).map (sAt T), minVal := (minima S).map (sAt S)
        indzer := EMD.zeroCrossings S } := by
  have h1 : ∀ i ∈ reported isPos isNeg S, i < S.length := fun i hi => EMD.maxima_lt hi
  have h2 : ∀ i ∈ minima S, i < S.length := fun i hi => by
    have := block_lt (minima_block hi); omega
  unfold findExtrema
  rw [extremaIdx_all]
  simp only [bind, Except.bind, pure, Except.pure]
  rw [EMD.pyTake_nat T _ 0 (by rw [hT]; exact h1), EMD.pyTake_nat S _ 0 h1, EMD.pyTake_nat T _ 0 (by rw [hT]; exact h2), EMD.pyTake_nat S _ 0 h2]
  rfl

/-! ## Knots -/

theorem timeIdx_sAt (T : List K) (hT : T.Pairwise (· < ·)) (X : List Nat) (hX : ∀ i ∈ X, i < T.length) :
    timeIdx T (X.map (sAt T)) = .ok (X.map (fun k : Nat => (k : Int))) := by
  have one : ∀ i ∈ X, nonzero (T.map (fun τ => τ == sAt T i)) = [i] := by
    intro i hi
    have hlt := hX i hi
    have hs := nonzero_sorted (T.map (fun τ => τ == sAt T i))
    have hm : ∀ j, j ∈ nonzero (T.map (fun τ => τ == sAt T i)) ↔ j = i := by
      intro j
      rw [mem_nonzero, List.getElem?_map]
      constructor
      · intro h
        by_cases hj : j < T.length
        · rw [List.getElem?_eq_getElem hj] at h
          simp only [Option.map_some, Option.some.injEq, beq_iff_eq] at h
          rw [sAt, getD_lt _ _ _ hlt] at h
          rcases Nat.lt_trichotomy j i with h1 | h1 | h1
          · exact absurd h (List.pairwise_iff_getElem.1 hT _ _ hj hlt h1).ne
          · exact h1
          · exact absurd h (List.pairwise_iff_getElem.1 hT _ _ hlt hj h1).ne'
        · rw [List.getElem?_eq_none (by omega)] at h
          cases h
      · rintro rfl
        rw [List.getElem?_eq_getElem hlt, sAt, getD_lt _ _ _ hlt]
        simp
    match hl : nonzero (T.map (fun τ => τ == sAt T i)), hs, hm with
    | [], _, hm => exact absurd ((hm i).2 rfl) (by simp)
    | [a], _, hm => rw [(hm a).1 (by simp)]
    | a :: b :: _, hs, hm =>
      have h1 := (hm a).1 (by simp)
      have h2 := (hm b).1 (by simp)
      have := (List.pairwise_cons.1 hs).1 b (by simp)
      omega
  have hrows : (X.map (sAt T)).map (fun t => nonzero (T.map (fun τ => τ == t))) = X.map (fun i => [i]) := by
    rw [List.map_map]
    exact List.map_congr_left one
  unfold timeIdx
  simp only [hrows]
  rw [if_pos]
  · congr 1
    congr 1
    clear one hrows hX
    induction X with
    | nil => rfl
    | cons x X ih => simp [ih]
  · cases X with
    | nil => rfl
    | cons x X => simp

theorem dropDup_map (c : K → K) (l : List (K × K)) :
    EMD.dropDupKnots (l.map (fun p => (p.1, c p.2))) = (EMD.dropDupKnots l).map (fun p => (p.1, c p.2)) := by
  induction l with
  | nil => rfl
  | cons p l ih =>
    cases l with
    | nil => rfl
    | cons q l =>
      simp only [List.map_cons] at ih ⊢
      unfold EMD.dropDupKnots
      dsimp only
      split
      · rw [ih]
      · rw [ih]; rfl

theorem zip_convert (c : K → K) (a b : List K) : a.zip (b.map c) = (a.zip b).map (fun p => (p.1, c p.2)) := by
  rw [List.zip_map_right]
  rfl

theorem _root_.PyEMD.EMD.Spec.GoodKnots.convert {T S pos val : List K} {k : List (K × K)} (c : K → K) (h : GoodKnots T S pos val k) :
    GoodKnots T (S.map c) pos (val.map c) (k.map (fun p => (p.1, c p.2))) := by
  constructor
  · simpa using h.three
  · rw [List.pairwise_map]; exact h.increasing
  · obtain ⟨p, t, h1, h2, h3⟩ := h.first
    exact ⟨(p.1, c p.2), t, by rw [List.head?_map, h1]; rfl, h2, h3⟩
  · obtain ⟨p, t, h1, h2, h3⟩ := h.last
    exact ⟨(p.1, c p.2), t, by rw [List.getLast?_map, h1]; rfl, h2, h3⟩
  · intro p hp
    rw [zip_convert] at hp
    obtain ⟨q, hq, rfl⟩ := List.mem_map.1 hp
    exact List.mem_map_of_mem (h.extrema q hq)
  · intro p hp
    obtain ⟨q, hq, rfl⟩ := List.mem_map.1 hp
    exact List.mem_map_of_mem (h.values q hq)

/-- The knots for alternating extrema. -/
theorem preparePoints_ok (c : K → K) (nb : Int) (hnb : 1 ≤ nb) (T S : List K) (hT : T.Pairwise (· < ·)) (hl : T.length = S.length) (A B : List Nat)
    (sA : A.Pairwise (· < ·)) (sB : B.Pairwise (· < ·)) (rA : ∀ i ∈ A, i + 1 < S.length) (rB : ∀ i ∈ B, i + 1 < S.length)
    (disj : ∀ i ∈ A, i ∉ B)
    (altA : ∀ a ∈ A, ∀ a' ∈ A, a < a' → ∃ b ∈ B, a < b ∧ b < a')
    (altB : ∀ b ∈ B, ∀ b' ∈ B, b < b' → ∃ a ∈ A, b < a ∧ a < b') (h3 : 3 ≤ A.length + B.length) :
    ∃ kmax kmin, preparePoints c nb S T (A.map (sAt T)) (B.map (sAt T)) = .ok (kmax, kmin) ∧
      GoodKnots T (S.map c) (A.map (sAt T)) ((A.map (sAt S)).map c) kmax ∧ GoodKnots T (S.map c) (B.map (sAt T)) ((B.map (sAt S)).map c) kmin := by
  have hA : Lists S.length (A.map (fun k : Nat => (k : Int))) := by
    constructor
    · rw [List.pairwise_map]; exact sA.imp (fun h => by omega)
    · simp only [List.mem_map]
      rintro _ ⟨k, hk, rfl⟩
      have := rA k hk
      omega
  have hB : Lists S.length (B.map (fun k : Nat => (k : Int))) := by
    constructor
    · rw [List.pairwise_map]; exact sB.imp (fun h => by omega)
    · simp only [List.mem_map]
      rintro _ ⟨k, hk, rfl⟩
      have := rB k hk
      omega
  have two : ∀ (X Y : List Nat), X.Pairwise (· < ·) → Y.Pairwise (· < ·) → 3 ≤ X.length + Y.length →
      (∀ b ∈ Y, ∀ b' ∈ Y, b < b' → ∃ a ∈ X, b < a ∧ a < b') →
      ∀ x ∈ X, ((∀ y ∈ Y, x < y) ∨ (∀ y ∈ Y, y < x)) → 2 ≤ X.length := by
    intro X Y sX sY h3 alt x hx hxy
    by_contra hc
    have hX1 : X = [x] := by
      match X, hx, hc with
      | [a], hx, _ => simp at hx; rw [hx]
      | _ :: _ :: _, _, hc => simp at hc
    match Y, sY, h3, alt, hxy with
    | [], _, h3, _, _ => simp [hX1] at h3
    | [_], _, h3, _, _ => simp [hX1] at h3
    | y :: y' :: Y, sY, _, alt, hxy =>
      obtain ⟨a, ha, h1, h2⟩ := alt y (by simp) y' (by simp) ((List.pairwise_cons.1 sY).1 y' (by simp))
      rw [hX1] at ha
      simp at ha
      subst ha
      rcases hxy with h | h
      · have := h y (by simp); omega
      · have := h y' (by simp); omega
  have pos : ∀ X Y : List Nat, X.Pairwise (· < ·) → Y.Pairwise (· < ·) → 1 ≤ X.length → 3 ≤ X.length + Y.length →
      (∀ a ∈ Y, ∀ a' ∈ Y, a < a' → ∃ b ∈ X, a < b ∧ b < a') → ∃ c ∈ X, 0 < c := by
    intro X Y sX sY h1 h2 alt
    match X, Y, h1, h2, sX, sY, alt with
    | _ :: x' :: _, _, _, _, sX, _, _ =>
      exact ⟨x', by simp, by have := (List.pairwise_cons.1 sX).1 x' (by simp); omega⟩
    | [x], y :: y' :: _, _, _, _, sY, alt =>
      obtain ⟨b, hb, h3, -⟩ := alt y (by simp) y' (by simp) ((List.pairwise_cons.1 sY).1 y' (by simp))
      exact ⟨b, hb, by omega⟩
    | [x], [], _, h2, _, _, _ => simp at h2
    | [x], [y], _, h2, _, _, _ => simp at h2
  have l1 := EMD.length_le_of_between sA altA
  have l2 := EMD.length_le_of_between sB altB
  have pA := pos A B sA sB (by omega) h3 altB
  have pB := pos B A sB sA (by omega) (by omega) altA
  have tA := timeIdx_sAt T hT A (fun i hi => by have := rA i hi; omega)
  have tB := timeIdx_sAt T hT B (fun i hi => by have := rB i hi; omega)
  have hn : 0 < S.length := by obtain ⟨c, hc, -⟩ := pA; have := rA c hc; omega
  match A, B, hA, hB with
  | [], B, _, _ => simp only [List.length_nil] at l2 h3; omega
  | A, [], _, _ => simp only [List.length_nil] at l1 h3; omega
  | a :: A, b :: B, hA, hB =>
    have nA : (a :: A).map (fun k : Nat => (k : Int)) ≠ [] := by simp
    have nB : (b :: B).map (fun k : Nat => (k : Int)) ≠ [] := by simp
    have hdis : ∀ i ∈ (a :: A).map (fun k : Nat => (k : Int)), i ∉ (b :: B).map (fun k : Nat => (k : Int)) := by
      simp only [List.mem_map]
      rintro _ ⟨k, hk, rfl⟩ ⟨k', hk', e⟩
      have : k = k' := by omega
      subst this
      exact disj k hk hk'
    have headA : ∀ x ∈ a :: A, a ≤ x := fun x hx => (List.mem_cons.1 hx).elim (fun h => h.ge) (fun h => ((List.pairwise_cons.1 sA).1 x h).le)
    have headB : ∀ x ∈ b :: B, b ≤ x := fun x hx => (List.mem_cons.1 hx).elim (fun h => h.ge) (fun h => ((List.pairwise_cons.1 sB).1 x h).le)
    obtain ⟨m, sl, lx, ln, e1, e2, o1, o2, -, -⟩ := EMD.leftTime_ok nb hnb T S hT hl (a : Int) (b : Int) (A.map (fun k : Nat => (k : Int)))
      (B.map (fun k : Nat => (k : Int))) hA hB (by have := disj a (by simp); simp at this; omega)
      (by
        intro hab
        have := two (a :: A) (b :: B) sA sB h3 altB a (by simp) (.inl (fun y hy => by have := headB y hy; omega))
        simpa using this)
      (by
        intro hab
        have := two (b :: B) (a :: A) sB sA (by omega) altA b (by simp) (.inl (fun y hy => by have := headA y hy; omega))
        simpa using this)
    obtain ⟨m', sr, rx, rn, e3, e4, o3, o4, -, -⟩ := EMD.rightTime_ok nb hnb T S hT hl ((a :: A).map (fun k : Nat => (k : Int)))
      ((b :: B).map (fun k : Nat => (k : Int))) hA hB nA nB
      (fun hc => hdis _ (List.getLast_mem nA) (hc ▸ List.getLast_mem nB))
      (by
        intro hab
        obtain ⟨x, hx, hxe⟩ := List.mem_map.1 (List.getLast_mem nA)
        have := two (a :: A) (b :: B) sA sB h3 altB x hx (.inr (fun y hy => by
          have := hB.le_last nB _ (List.mem_map_of_mem hy)
          omega))
        simpa using this)
      (by
        intro hab
        obtain ⟨x, hx, hxe⟩ := List.mem_map.1 (List.getLast_mem nB)
        have := two (b :: B) (a :: A) sB sA (by omega) altA x hx (.inr (fun y hy => by
          have := hA.le_last nA _ (List.mem_map_of_mem hy)
          omega))
        simpa using this)
    have g1 := EMD.goodTimeKnots hT hl sA rA pA o1 o3
    have g2 := EMD.goodTimeKnots hT hl sB rB pB o2 o4
    refine ⟨_, _, ?_, g1.convert c, g2.convert c⟩
    have e1' : EMD.leftBound nb S ((a :: A).map (fun k : Nat => (k : Int))) ((b :: B).map (fun k : Nat => (k : Int))) = .ok m := e1
    have e2' : EMD.leftMirror nb T ((a :: A).map (fun k : Nat => (k : Int))) ((b :: B).map (fun k : Nat => (k : Int)))
      (EMD.fillMissing ((a :: A).map (fun k : Nat => (k : Int))) ((b :: B).map (fun k : Nat => (k : Int))) m) = _ := e2
    have rl := hA.rng (m := lx) o1.mem hn
    have rl' := hB.rng (m := ln) o2.mem hn
    have rr := hA.rng' (m := rx) (by rw [← hl]; exact o3.mem) hn
    have rr' := hB.rng' (m := rn) (by rw [← hl]; exact o4.mem) hn
    have cA := hA.rng (fun i hi => .inl hi) hn
    have cB := hB.rng (fun i hi => .inl hi) hn
    unfold preparePoints
    simp only [tA, tB, e1', e2', e3, e4, asBug, bind, Except.bind]
    rw [EMD.pyTake_sI S lx rl, EMD.pyTake_sI S ln rl', EMD.pyTake_sI S rx rr, EMD.pyTake_sI S rn rr', EMD.pyTake_sI S _ cB,
      EMD.pyTake_sI S _ cA, EMD.pyTake_sI T _ (by rw [hl]; exact cB), EMD.pyTake_sI T _ (by rw [hl]; exact cA)]
    simp only [pure, Except.pure, EMD.timeKnots, EMD.mirS, zip_convert, dropDup_map]
    rw [List.zip_append (by simp), List.zip_append (by simp), List.zip_append (by simp), List.zip_append (by simp)]
    simp only [EMD.zip_maps, List.append_assoc]

/-! ## Envelopes -/

/-- The spline kinds `EMD_matlab` knows. -/
def Supported : SplineKind → Prop
  | .akima | .cubic | .slinear | .quadratic | .linear => True
  | _ => False

theorem splinePoints_ok (c : K → K) {sp : SciPy K} (hsp : AcceptsAll sp) {kind : SplineKind} (hk : Supported kind) {T : List K} (hT : T.Pairwise (· < ·))
    {S pos val : List K} {k : List (K × K)} (h : GoodKnots T S pos val k) :
    ∃ t q, splinePoints c sp T k kind = .ok (t, q) ∧ q.length = T.length := by
  have hc : ∃ p q, k.head? = some p ∧ k.getLast? = some q ∧ ∀ τ ∈ T, p.1 ≤ τ ∧ τ ≤ q.1 := by
    obtain ⟨p, t, c1, c2, c3⟩ := h.first
    obtain ⟨q, t', c4, c5, c6⟩ := h.last
    refine ⟨p, q, c1, c4, fun τ hτ => ⟨c3.trans ?_, le_trans ?_ c6⟩⟩
    · cases T with
      | nil => cases hτ
      | cons t1 T =>
        cases c2
        rcases List.mem_cons.1 hτ with rfl | hτ
        · exact le_refl _
        · exact ((List.pairwise_cons.1 hT).1 τ hτ).le
    · have hne : T ≠ [] := by rintro rfl; cases hτ
      rw [List.getLast?_eq_some_getLast hne] at c5
      obtain rfl := Option.some.inj c5
      rw [← List.dropLast_append_getLast hne] at hτ
      rcases List.mem_append.1 hτ with hτ | hτ
      · have := hT
        rw [← List.dropLast_append_getLast hne, List.pairwise_append] at this
        exact (this.2.2 τ hτ _ (by simp)).le
      · rw [List.mem_singleton] at hτ
        exact hτ.le
  obtain ⟨kp, kq, hp, hq, hcov⟩ := hc
  obtain ⟨t, q, h1, h2⟩ := EMD.splinePoints_cover hsp (kind := kind) (by rintro rfl; exact hk) (hT.imp le_of_lt) h.three h.increasing ⟨kp, kq, hp, hq, hcov⟩
  unfold EMD.splinePoints at h1
  unfold splinePoints
  simp only [bind_eq_ok] at h1
  obtain ⟨x0, hx0, xL, hxL, h1⟩ := h1
  simp only [hx0, hxL, bind, Except.bind]
  cases kind with
  | unknown => exact hk.elim
  | pchip => exact hk.elim
  | cubicHermite => exact hk.elim
  | akima =>
    simp only [bind_eq_ok, pure_eq_ok] at h1
    obtain ⟨v, hv, h1⟩ := h1
    obtain ⟨rfl, rfl⟩ := Prod.mk.inj h1
    exact ⟨_, _, by simp only [hv]; rfl, h2⟩
  | slinear =>
    simp only [bind_eq_ok, pure_eq_ok] at h1
    obtain ⟨v, hv, h1⟩ := h1
    obtain ⟨rfl, rfl⟩ := Prod.mk.inj h1
    exact ⟨_, _, by simp only [hv]; rfl, by rw [List.length_map]; exact h2⟩
  | quadratic =>
    simp only [bind_eq_ok, pure_eq_ok] at h1
    obtain ⟨v, hv, h1⟩ := h1
    obtain ⟨rfl, rfl⟩ := Prod.mk.inj h1
    exact ⟨_, _, by simp only [hv]; rfl, by rw [List.length_map]; exact h2⟩
  | linear =>
    simp only [bind_eq_ok, pure_eq_ok] at h1
    obtain ⟨v, hv, h1⟩ := h1
    obtain ⟨rfl, rfl⟩ := Prod.mk.inj h1
    exact ⟨_, _, by simp only [hv]; rfl, by rw [List.length_map]; exact h2⟩
  | cubic =>
    simp only [] at h1 ⊢
    split at h1
    · next hlen =>
      rw [if_pos hlen]
      simp only [bind_eq_ok, pure_eq_ok] at h1
      obtain ⟨v, hv, h1⟩ := h1
      obtain ⟨rfl, rfl⟩ := Prod.mk.inj h1
      exact ⟨_, _, by simp only [hv]; rfl, by rw [List.length_map]; exact h2⟩
    · next hlen =>
      rw [if_neg hlen]
      have hX0 : (k.map (·.1)) ≠ [] := by rintro hc; simp at hc; subst hc; cases hp
      have e0 : kp.1 = x0 := by
        match k, hp, hx0 with
        | _ :: _, hp, hx0 =>
          simp at hp; subst hp
          rw [List.map_cons, pyGet_cons] at hx0
          injection hx0
      have eL : kq.1 = xL := by
        have hne : k ≠ [] := by simpa using hX0
        rw [pyGet_last _ hX0, List.getLast_map hX0] at hxL
        rw [List.getLast?_eq_some_getLast hne] at hq
        injection hq with hq
        injection hxL with hxL
        rw [← hq, hxL]
      have efil : T.filter (fun τ => decide (x0 ≤ τ) && decide (τ ≤ xL)) = T := by
        rw [List.filter_eq_self]
        intro τ hτ
        simp [← e0, ← eL, hcov τ hτ]
      rw [efil] at h1
      exact ⟨t, q.map c, by simp only [h1]; rfl, by rw [List.length_map]; exact h2⟩

theorem extract_ok {sp : SciPy K} (hsp : AcceptsAll sp) {cfg : Cfg K} (hnb : 1 ≤ cfg.nbsym) (hk : Supported cfg.splineKind)
    {T : List K} (hT : T.Pairwise (· < ·)) (x : List K) (hl : T.length = x.length) :
    extractMaxMinSpline sp cfg T x = .ok none ∨
      ∃ up lo, extractMaxMinSpline sp cfg T x = .ok (some (up, lo)) ∧ up.length = T.length ∧ lo.length = T.length := by
  unfold extractMaxMinSpline
  rw [findExtrema_all T x hl]
  simp only [bind, Except.bind, List.length_map]
  by_cases h3 : (reported isPos isNeg x).length + (minima x).length < 3
  · left
    rw [if_pos h3]
    rfl
  · right
    rw [if_neg h3]
    obtain ⟨kmax, kmin, h1, g1, g2⟩ := preparePoints_ok cfg.convert cfg.nbsym hnb T x hT hl _ _
      (EMD.reported_spec isPos isNeg EMD.isPos_zero EMD.isNeg_zero x).1 (minima_spec x).1
      (fun i hi => EMD.reported_lt EMD.isPos_zero EMD.isNeg_zero hi) (fun i hi => block_lt (minima_block hi))
      (fun i hi => maxima_not_minima hi) (fun a ha a' ha' => minima_between ha ha') (fun b hb b' hb' => maxima_between hb hb') (by omega)
    obtain ⟨t1, q1, s1, l1⟩ := splinePoints_ok cfg.convert hsp hk hT g1
    obtain ⟨t2, q2, s2, l2⟩ := splinePoints_ok cfg.convert hsp hk hT g2
    simp only [h1, s1, s2, pure, Except.pure]
    exact ⟨q1, q2, rfl, l1, l2⟩

/-! ## The loops -/

theorem bcast_same (f : K → K → K) (a b : List K) (h : a.length = b.length) :
    bcast f a b = .ok (List.zipWith f a b) := by
  unfold bcast
  rw [if_pos h]

theorem countExt_ok (T x : List K) (hl : T.length = x.length) : ∃ e z, countExt T x = .ok (e, z) := by
  unfold countExt
  rw [findExtrema_all T x hl]
  exact ⟨_, _, rfl⟩

theorem stopSifting_ok (cfg : Cfg K) (up lo mean : List K) (e : Int) (h : up.length = lo.length) : ∃ b, stopSifting cfg up lo mean e = .ok b := by
  unfold stopSifting
  rw [bcast_same _ _ _ h]
  exact ⟨_, rfl⟩

/-- State of the inner loop: arrays as long as the signal. -/
def SiftLen (n : Nat) (s : Sift K) : Prop := s.imf.length = n ∧ s.mean.length = n

theorem siftBody_ok {sp : SciPy K} (hsp : AcceptsAll sp) {cfg : Cfg K} (hnb : 1 ≤ cfg.nbsym) (hk : Supported cfg.splineKind)
    {T : List K} (hT : T.Pairwise (· < ·)) (s : Sift K) (hs : SiftLen T.length s) :
    (∃ s' why, siftBody sp cfg T s = .ok (.brk s' why) ∧ s'.imf.length = T.length) ∨
      ∃ s', siftBody sp cfg T s = .ok (.cont s') ∧ SiftLen T.length s' ∧ s'.n = s.n + 1 := by
  obtain ⟨h1, h2⟩ := hs
  obtain ⟨e, z, hc⟩ := countExt_ok T s.imf h1.symm
  unfold siftBody
  simp only [hc, bind, Except.bind]
  by_cases he : e > 2
  · rw [if_pos he]
    rw [bcast_same _ _ _ (by simp [h1, h2])]
    simp only []
    have hl : (List.zipWith (fun a b : K => a - b) s.imf (s.mean.map (fun m => cfg.reduceScale * m))).length = T.length := by simp [h1, h2]
    generalize List.zipWith (fun a b : K => a - b) s.imf (s.mean.map (fun m => cfg.reduceScale * m)) = imf at hl ⊢
    rcases extract_ok hsp hnb hk hT imf hl.symm with hx | ⟨up, lo, hx, lu, ll⟩
    · rw [hx]
      exact .inl ⟨_, _, rfl, hl⟩
    · rw [hx]
      simp only []
      rw [bcast_same _ _ _ (by omega)]
      simp only []
      have hm : ((List.zipWith (fun a b : K => a + b) up lo).map (fun x => lit (1 / 2) * x)).length = T.length := by simp [lu, ll]
      generalize (List.zipWith (fun a b : K => a + b) up lo).map (fun x => lit (1 / 2) * x) = mean at hm ⊢
      obtain ⟨e', z', hc'⟩ := countExt_ok T imf hl.symm
      obtain ⟨f1, hf⟩ := stopSifting_ok cfg up lo mean e' (by omega)
      split
      · exact .inl ⟨_, _, rfl, hl⟩
      · split
        · split
          · exact .inl ⟨_, _, rfl, hl⟩
          · exact .inr ⟨_, rfl, ⟨hl, hm⟩, rfl⟩
        · split
          · simp only [hc']
            split
            · exact .inr ⟨_, rfl, ⟨hl, hm⟩, rfl⟩
            · generalize (if |e' - z'| > 1 then 0 else s.nh + 1) = nh
              split
              · exact .inl ⟨_, _, rfl, hl⟩
              · exact .inr ⟨_, rfl, ⟨hl, hm⟩, rfl⟩
          · simp only [hc', hf]
            split
            · exact .inl ⟨_, _, rfl, hl⟩
            · exact .inr ⟨_, rfl, ⟨hl, hm⟩, rfl⟩
  · rw [if_neg he]
    exact .inl ⟨_, _, rfl, h1⟩

theorem siftLoop_ok {sp : SciPy K} (hsp : AcceptsAll sp) {cfg : Cfg K} (hnb : 1 ≤ cfg.nbsym) (hk : Supported cfg.splineKind)
    {T : List K} (hT : T.Pairwise (· < ·)) (fuel : Nat) (s : Sift K) (hs : SiftLen T.length s) (hf : (cfg.MAX_ITERATION - s.n).toNat < fuel) :
    ∃ s' why, siftLoop sp cfg T fuel s = .ok (s', why) ∧ s'.imf.length = T.length := by
  induction fuel generalizing s with
  | zero => omega
  | succ fuel ih =>
    unfold siftLoop
    by_cases hn : s.n < cfg.MAX_ITERATION
    · rw [if_pos hn]
      rcases siftBody_ok hsp hnb hk hT s hs with ⟨s', why, h, hl⟩ | ⟨s', h, hl, hn'⟩
      · rw [h]
        exact ⟨s', why, rfl, hl⟩
      · rw [h]
        exact ih s' hl (by omega)
    · rw [if_neg hn]
      exact ⟨s, .limit, rfl, hs.1⟩

/-- Variables of the outer loop. -/
structure StateLen (n : Nat) (st : State K) : Prop where
  res : st.Res.length = n
  imf : st.imf.length = n
  keys : Keys st.IMF st.imfNo
  rows : ∀ r ∈ st.IMF.map (·.2), r.length = n

theorem emdRound_total {sp : SciPy K} (hsp : AcceptsAll sp) {cfg : Cfg K} (hnb : 1 ≤ cfg.nbsym) (hk : Supported cfg.splineKind)
    {T : List K} (hT : T.Pairwise (· < ·)) (mi : Int) (st : State K) (hst : StateLen T.length st) :
    ∃ st' fin, emdRound sp cfg T T.length mi st = .ok (st', fin) ∧ StateLen T.length st' ∧ st'.imfNo = st.imfNo + 1 ∧
      (((st.imfNo : Int) + 1 = mi - 1) → fin = true) := by
  have hx : (vsub st.Res st.imf).length = T.length := by simp [vsub, hst.res, hst.imf]
  obtain ⟨s', why, h, hl⟩ := siftLoop_ok hsp hnb hk hT (cfg.MAX_ITERATION.toNat + 1)
    { n := 0, nh := 0, extNo := st.extNo, imf := vsub st.Res st.imf, mean := vzeros T.length } ⟨hx, by simp [vzeros]⟩
    (by simp)
  unfold emdRound
  rw [if_neg (by simp [hst.res, hst.imf])]
  simp only [h, bind, Except.bind]
  refine ⟨_, _, rfl, ⟨hx, hl, hst.keys.succ _, ?_⟩, rfl, ?_⟩
  · rw [hst.keys.set]
    intro r hr
    rw [List.map_append, List.mem_append] at hr
    rcases hr with hr | hr
    · exact hst.rows r hr
    · simp at hr; rw [hr]; exact hl
  · intro he
    simp [he]

theorem finish_total (S : List K) (scale : K) (st : State K) (hst : StateLen S.length st) : ∃ R, finish S scale st = .ok R := by
  unfold finish
  rw [hst.keys.gets]
  simp only [bind, Except.bind]
  rw [if_pos]
  · exact ⟨_, rfl⟩
  · rw [List.all_eq_true]
    intro r hr
    simpa using hst.rows r hr

/-- The initial state. -/
theorem stateLen_start (S : List K) (n : Nat) (hn : S.length = n) :
    StateLen n ({ Res := S, imf := vzeros n, IMF := [], EXT := [], ITER := [], imfNo := 0, extNo := 0, ends := [] } : State K) :=
  ⟨hn, by simp [vzeros], rfl, by simp⟩

/-- **C106**: with `nbsym ≥ 1`, a spline kind that `EMD_matlab` knows and strictly increasing time stamps (or none), no exception leaves
`emd`, whatever the signal, the thresholds and the iteration limits: the model ends with a result or, when `fuel` rounds of the outer loop do
not suffice, with `outOfFuel`, which is not a Python exception. -/
theorem C106_no_exception (fuel : Nat) (sp : SciPy K) (hsp : AcceptsAll sp) (cfg : Cfg K) (hnb : 1 ≤ cfg.nbsym) (hk : Supported cfg.splineKind)
    (S : List K) (T : Option (List K)) (hT : ∀ T', T = some T' → T'.length = S.length ∧ T'.Pairwise (· < ·)) (mi : Int) :
    (∃ R, emd fuel sp cfg S T mi = .ok R) ∨ emd fuel sp cfg S T mi = .error .outOfFuel := by
  have hT' : (timeOf S T).length = S.length ∧ (timeOf S T).Pairwise (· < ·) := by
    cases T with
    | some T => exact hT T rfl
    | none =>
      refine ⟨by simp [timeOf], ?_⟩
      simp only [timeOf, Option.getD_none, lit_nat]
      rw [List.pairwise_map]
      exact List.pairwise_lt_range.imp (fun h => by exact_mod_cast h)
  have key : ∀ (fuel : Nat) (st : State K), StateLen S.length st →
      (∃ st', emdLoop sp cfg (timeOf S T) S.length mi fuel st = .ok st' ∧ StateLen S.length st') ∨
        emdLoop sp cfg (timeOf S T) S.length mi fuel st = .error .outOfFuel := by
    intro fuel
    induction fuel with
    | zero => exact fun st _ => .inr rfl
    | succ fuel ih =>
      intro st hst
      rw [← hT'.1] at hst
      obtain ⟨st', fin, h1, h2, -, -⟩ := emdRound_total hsp hnb hk hT'.2 mi st hst
      rw [hT'.1] at h1 h2
      unfold emdLoop
      simp only [h1, bind, Except.bind]
      cases fin
      · exact ih st' h2
      · exact .inl ⟨st', rfl, h2⟩
  unfold emd
  simp only [lit_one, div_one, List.map_id']
  change (∃ R, (if S.length ≠ (timeOf S T).length then _ else _) = _) ∨ (if S.length ≠ (timeOf S T).length then _ else _) = _
  rw [if_neg (by simp [hT'.1])]
  rcases key fuel _ (stateLen_start S S.length rfl) with ⟨st', h1, h2⟩ | h1
  · left
    obtain ⟨R, hR⟩ := finish_total S 1 st' h2
    refine ⟨R, ?_⟩
    change (emdLoop sp cfg (timeOf S T) S.length mi fuel _ >>= _) = _
    rw [h1]
    exact hR
  · right
    change (emdLoop sp cfg (timeOf S T) S.length mi fuel _ >>= _) = _
    rw [h1]
    rfl

/-- **C106**, with a limit on the number of components: `emd` returns. -/
theorem C106_returns (fuel : Nat) (sp : SciPy K) (hsp : AcceptsAll sp) (cfg : Cfg K) (hnb : 1 ≤ cfg.nbsym) (hk : Supported cfg.splineKind)
    (S : List K) (T : Option (List K)) (hT : ∀ T', T = some T' → T'.length = S.length ∧ T'.Pairwise (· < ·)) (k : Nat) (hk2 : 2 ≤ k)
    (hf : k ≤ fuel + 1) : ∃ R, emd fuel sp cfg S T k = .ok R := by
  have hT' : (timeOf S T).length = S.length ∧ (timeOf S T).Pairwise (· < ·) := by
    cases T with
    | some T => exact hT T rfl
    | none =>
      refine ⟨by simp [timeOf], ?_⟩
      simp only [timeOf, Option.getD_none, lit_nat]
      rw [List.pairwise_map]
      exact List.pairwise_lt_range.imp (fun h => by exact_mod_cast h)
  have key : ∀ (fuel : Nat) (st : State K), StateLen S.length st → st.imfNo + 2 ≤ k → k ≤ fuel + 1 + st.imfNo →
      ∃ st', emdLoop sp cfg (timeOf S T) S.length k fuel st = .ok st' ∧ StateLen S.length st' := by
    intro fuel
    induction fuel with
    | zero => intro st _ _ _; omega
    | succ fuel ih =>
      intro st hst h2 h3
      rw [← hT'.1] at hst
      obtain ⟨st', fin, h1, h4, h5, h6⟩ := emdRound_total hsp hnb hk hT'.2 k st hst
      rw [hT'.1] at h1 h4
      unfold emdLoop
      simp only [h1, bind, Except.bind]
      cases fin
      · refine ih st' h4 ?_ (by omega)
        by_contra hc
        exact absurd (h6 (by omega)) (by simp)
      · exact ⟨st', rfl, h4⟩
  unfold emd
  simp only [lit_one, div_one, List.map_id']
  change ∃ R, (if S.length ≠ (timeOf S T).length then _ else _) = _
  rw [if_neg (by simp [hT'.1])]
  obtain ⟨st', h1, h2⟩ := key fuel _ (stateLen_start S S.length rfl) hk2 (by simpa using hf)
  obtain ⟨R, hR⟩ := finish_total S 1 st' h2
  refine ⟨R, ?_⟩
  change (emdLoop sp cfg (timeOf S T) S.length k fuel _ >>= _) = _
  rw [h1]
  exact hR

/-- Uneven time stamps, the default options and a signal with nine extrema. -/
example : ∃ R, emd 2 linSciPy (Cfg.default : Cfg ℚ) EMD.sampleS (some [0, 1, 3, 4, 7, 8, 9, 11, 12, 20]) (3 : Nat) = .ok R :=
  C106_returns 2 linSciPy EMD.linSciPy_accepts Cfg.default (by decide) trivial EMD.sampleS _
    (by rintro T' ⟨⟩; exact ⟨by decide, by decide⟩) 3 (by decide) (by decide)

/-- The hypotheses are needed: a time stamp that occurs twice, a spline kind that only `EMD` knows, and no mirrored extrema. -/
example : errIs .valueError (emd 5 linSciPy (Cfg.default : Cfg ℚ) EMD.sampleS (some [0, 1, 1, 4, 7, 8, 9, 11, 12, 20]) 3) = true := by
  decide +kernel
example : errIs .valueError (emd 5 linSciPy { (Cfg.default : Cfg ℚ) with splineKind := .pchip } EMD.sampleS none 3) = true := by
  decide +kernel
example : errIs .valueError (emd 5 linSciPy { (Cfg.default : Cfg ℚ) with nbsym := 0 } EMD.sampleS none 3) = true := by
  decide +kernel

end Matlab
end PyEMD
