import Verif.Props.Points
import Verif.Spec.Samples
import Verif.Spec.Mirror

/-!
# C81: which knots are added beyond the edges
-/

set_option linter.unusedSectionVars false

namespace PyEMD
namespace EMD
open Spec

variable {K : Type} [Field K] [LinearOrder K] [IsStrictOrderedRing K] [FloorRing K]

/-- From indices to knots.  `σ` turns an index into a time, counted from the edge. -/
theorem edge_of_edgeI {k : Nat} {e : Int} {out : Int → Prop} {far : Prop} {X Y own oth : List Int} {s : Int} (σ v : Int → K)
    (hσ : ∀ x i, σ (2 * x - i) = 2 * σ x - σ i) (hout : ∀ i, out i ↔ σ i ≤ σ e) (h : EdgeI k e out far X Y s own oth) :
    Edge k (σ e) (v e) far (X.map (fun i => (σ i, v i))) (Y.map (fun i => (σ i, v i)))
      (own.map (fun i => (σ (2 * s - i), v i))) (oth.map (fun i => (σ (2 * s - i), v i))) := by
  obtain ⟨x, X', rfl, h⟩ := h
  have img : ∀ (c : Int) (l : List Int), l.map (fun i => (σ (2 * c - i), v i)) = image (σ c) (l.map (fun i => (σ i, v i))) := by
    intro c l
    unfold image
    rw [List.map_map]
    apply List.map_congr_left
    intro i _
    simp [hσ]
  have past : PastEdge k (σ e) (σ x, v x) (X'.map (fun i => (σ i, v i))) (Y.map (fun i => (σ i, v i))) ↔
      ((∃ i ∈ X'.take k, out (2 * x - i)) ∧ (∃ i ∈ Y.take k, out (2 * x - i))) := by
    unfold PastEdge
    have : ∀ l : List Int, (∃ p ∈ image (σ x) ((l.map (fun i => (σ i, v i))).take k), p.1 ≤ σ e) ↔ ∃ i ∈ l.take k, out (2 * x - i) := by
      intro l
      rw [← List.map_take, ← img]
      simp only [List.mem_map, hout]
      constructor
      · rintro ⟨_, ⟨i, hi, rfl⟩, h⟩
        exact ⟨i, hi, h⟩
      · rintro ⟨i, hi, h⟩
        exact ⟨_, ⟨i, hi, rfl⟩, h⟩
    rw [this, this]
  refine ⟨(σ x, v x), X'.map (fun i => (σ i, v i)), rfl, ?_⟩
  rw [past]
  rcases h with ⟨h1, h2, rfl, rfl, rfl⟩ | ⟨h1, h2, rfl, rfl, rfl⟩ | ⟨h1, rfl, rfl, rfl⟩
  · exact .inl ⟨h1, h2, by rw [img, List.map_take], by rw [img, List.map_take]⟩
  · exact .inr (.inl ⟨h1, h2, by rw [img, List.map_take], by rw [img, List.map_take]⟩)
  · exact .inr (.inr ⟨h1, by rw [img, List.map_take], by rw [img, List.map_cons, List.map_take]⟩)

theorem start_of_startI {k : Nat} {e : Int} {out : Int → Prop} {S : List K} {near : Int → Int → Prop} {A B mx mn : List Int} {s : Int}
    (σ : Int → K) (hσ : ∀ x i, σ (2 * x - i) = 2 * σ x - σ i) (hout : ∀ i, out i ↔ σ i ≤ σ e) (hnear : ∀ i j, near i j → σ i < σ j)
    (h : StartI k e out S near A B s mx mn) :
    Added k (σ e) (sI S e) (A.map (fun i => (σ i, sI S i))) (B.map (fun i => (σ i, sI S i)))
      (mx.map (fun i => (σ (2 * s - i), sI S i))) (mn.map (fun i => (σ (2 * s - i), sI S i))) := by
  obtain ⟨a, b, ha, hb, h⟩ := h
  refine ⟨(σ a, sI S a), (σ b, sI S b), by rw [List.head?_map, ha]; rfl, by rw [List.head?_map, hb]; rfl, ?_⟩
  rcases h with ⟨h1, h2⟩ | ⟨h1, h2⟩
  · exact .inl ⟨hnear _ _ h1, edge_of_edgeI σ (sI S) hσ hout h2⟩
  · exact .inr ⟨hnear _ _ h1, edge_of_edgeI σ (sI S) hσ hout h2⟩

theorem back_map (c : K) (l : List Int) (f : Int → K × K) :
    back c (l.map f) = l.reverse.map (fun i => (c - (f i).1, (f i).2)) := by
  unfold back
  rw [List.map_map, List.map_reverse]
  rfl

/-- C81: with simple detection on the time stamps 0, 1, ..., `nbsym ≥ 1` and at least three reported extrema, the knots of the two
envelopes are the reported extrema together with what the documented mirror rule adds beyond the two edges; the right edge is treated
as the left edge of the signal run backwards. -/
theorem C81_mirror_rule (nbsym : Nat) (hnb : 1 ≤ nbsym) (S T : List K) (hT : T = (List.range S.length).map (fun k : Nat => (k : K)))
    (e : Extrema K) (he : findExtrema .simple T S = .ok e) (h3 : 3 ≤ e.maxPos.length + e.minPos.length) :
    ∃ kmax kmin s0 s1, S.head? = some s0 ∧ S.getLast? = some s1 ∧ preparePoints .simple nbsym T S e = .ok (kmax, kmin) ∧
      EnvelopeKnots nbsym 0 s0 ((S.length : K) - 1) s1 (e.maxPos.zip e.maxVal) (e.minPos.zip e.minVal) kmax kmin := by
  have hT' : T = timeArr S.length := hT
  subst hT'
  have he' := findExtremaSimple_eq (timeArr S.length : List K) S (timeArr_length _)
  rw [show findExtrema .simple (timeArr S.length : List K) S = _ from he'] at he
  injection he with he
  subst he
  simp only [List.length_map] at h3
  have rA : ∀ i ∈ reported isPos isNeg S, i + 1 < S.length := fun i hi => reported_lt isPos_zero isNeg_zero hi
  have rB : ∀ i ∈ reported isNeg isPos S, i + 1 < S.length := fun i hi => reported_lt isNeg_zero isPos_zero hi
  have sA := (reported_spec isPos isNeg isPos_zero isNeg_zero S).1
  have sB := (reported_spec isNeg isPos isNeg_zero isPos_zero S).1
  have posT : ∀ X : List Nat, (∀ i ∈ X, i + 1 < S.length) → X.map (sAt (timeArr S.length : List K)) = X.map (fun k : Nat => (k : K)) := by
    intro X hX
    apply List.map_congr_left
    intro i hi
    have := hX i hi
    have h := timeArr_getD (K := K) S.length (i : Int) (by omega) (by omega)
    simpa [sAt] using h
  have hd : ∀ i ∈ reported isPos isNeg S, i ∉ reported isNeg isPos S := fun i hi => maxima_minima_disjoint hi
  obtain ⟨lx, rx, ln, rn, sl, sr, e1, o1, o2, o3, o4, o5, o6⟩ := preparePointsSimple_ok (nbsym : Int) (by omega) S _ _ sA sB rA rB hd
    (fun a ha a' ha' => maxima_alternate ha ha') (fun a ha a' ha' => minima_alternate ha ha') h3
  have l1 := length_le_of_between sA (fun a ha a' ha' => maxima_alternate ha ha')
  have l2 := length_le_of_between sB (fun a ha a' ha' => minima_alternate ha ha')
  have nS : S ≠ [] := by
    rintro rfl
    cases hA : reported isPos isNeg ([] : List K) with
    | nil => rw [hA] at h3 l2; simp at h3 l2; omega
    | cons a l => have := rA a (by rw [hA]; simp); simp at this
  have hn : 0 < S.length := List.length_pos_of_ne_nil nS
  unfold preparePoints
  simp only [posT _ rA, posT _ rB]
  refine ⟨_, _, sI S 0, sI S ((S.length : Int) - 1), ?_, ?_, e1, ?_⟩
  · cases S with
    | nil => exact absurd rfl nS
    | cons a l => rfl
  · rw [List.getLast?_eq_getElem?, List.getElem?_eq_getElem (by omega)]
    unfold sI
    rw [getD_lt _ _ _ (by omega)]
    congr 2
    omega
  generalize reported isPos isNeg S = A at *
  generalize reported isNeg isPos S = B at *
  have hL : ∀ X : List Nat, X.Pairwise (· < ·) → (∀ i ∈ X, i + 1 < S.length) → Lists S.length (X.map (fun k : Nat => (k : Int))) := by
    intro X sX rX
    constructor
    · rw [List.pairwise_map]; exact sX.imp (fun h => by omega)
    · simp only [List.mem_map]
      rintro _ ⟨k, hk, rfl⟩
      have := rX k hk
      omega
  have nA : A.map (fun k : Nat => (k : Int)) ≠ [] := by
    intro h
    rw [List.map_eq_nil_iff] at h
    subst h
    simp at h3 l2
    omega
  have nB : B.map (fun k : Nat => (k : Int)) ≠ [] := by
    intro h
    rw [List.map_eq_nil_iff] at h
    subst h
    simp at h3 l1
    omega
  have zipI : ∀ X : List Nat, (X.map (fun k : Nat => (k : K))).zip (X.map (sAt S)) = (X.map (fun k : Nat => (k : Int))).map (fun i : Int => ((i : K), sI S i)) := by
    intro X
    rw [zip_maps, List.map_map]
    apply List.map_congr_left
    intro k _
    simp [sI, sAt]
  rw [zipI, zipI]
  have mem : ∀ (X l r : List Int), Lists S.length X → X ≠ [] → LeftOK X l sl → RightOK S.length X r sr →
      (dropDupKnots (rawKnots S X l r sl sr)).Pairwise (fun p q => p.1 < q.1) ∧
      ∀ p, p ∈ dropDupKnots (rawKnots S X l r sl sr) ↔
        p ∈ l.reverse.map (fun i : Int => (((2 * sl - i : Int) : K), sI S i)) ∨ p ∈ X.map (fun i : Int => ((i : K), sI S i)) ∨
          p ∈ r.reverse.map (fun i : Int => (((2 * sr - i : Int) : K), sI S i)) := by
    intro X l r hX nX hl hr
    have hs := rawKnots_sorted hX nX hl hr
    refine ⟨dropDup_sorted hs, fun p => ?_⟩
    rw [dropDup_mem hs]
    unfold rawKnots
    simp only [List.mem_append, List.map_reverse, List.mem_reverse, cast_mir, or_assoc]
  have last : ((((S.length : Int) - 1 : Int)) : K) = (S.length : K) - 1 := by push_cast; ring
  refine ⟨_, _, rx.reverse.map (fun i : Int => (((2 * sr - i : Int) : K), sI S i)), rn.reverse.map (fun i : Int => (((2 * sr - i : Int) : K), sI S i)), ?_, ?_,
    mem _ _ _ (hL A sA rA) nA o1 o3, mem _ _ _ (hL B sB rB) nB o2 o4⟩
  · have := start_of_startI (fun i : Int => (i : K)) (fun x i => by push_cast; ring) (fun i => by simp) (fun i j h => by simpa using h) o5
    simpa using this
  · have := start_of_startI (fun i : Int => (S.length : K) - 1 - (i : K)) (fun x i => by push_cast; ring)
      (fun i => by rw [last, sub_self, sub_nonpos, ← last, Int.cast_le]) (fun i j h => by
        have : (j : K) < (i : K) := by simpa using h
        linarith) o6
    simp only [last, sub_self] at this
    rw [back_map, back_map, back_map, back_map, zero_add]
    simp only [List.reverse_reverse]
    convert this using 2
    exact (Int.toNat_natCast _).symm

/-- Five extrema, one mirrored over each edge.  On the left the image over the maximum at 1 gets past the first sample; on the right
the last sample is not below the maximum at 7, so it becomes a knot of the upper envelope. -/
example : okWith (fun k : List (ℚ × ℚ) × List (ℚ × ℚ) =>
      decide (k = ([(-1, 2), (1, 3), (3, 2), (7, 4), (9, 6)], [(0, -1), (2, -1), (5, -2), (8, 1), (10, 1)])))
    (do let e ← findExtrema .simple (timeArr 10) [0, 3, -1, 2, 1, -2, 3, 4, 1, 6]
        preparePoints .simple 1 (timeArr 10) [0, 3, -1, 2, 1, -2, 3, 4, 1, 6] e) = true := by
  decide +kernel

/-- Here the image over the first extremum would not get past the first sample, so the first sample is the mirror. -/
example : okWith (fun k : List (ℚ × ℚ) × List (ℚ × ℚ) =>
      decide (k = ([(-4, 4), (4, 4), (6, 5), (8, 4)], [(-3, 0), (3, 0), (5, -1), (7, -1)])))
    (do let e ← findExtrema .simple (timeArr 8) [3, 2, 1, 0, 4, -1, 5, 0]
        preparePoints .simple 1 (timeArr 8) [3, 2, 1, 0, 4, -1, 5, 0] e) = true := by
  decide +kernel

/-! ### The rule determines the knots and does not prefer a direction of time -/

theorem back_back (c : K) (ps : List (K × K)) : back c (back c ps) = ps := by
  unfold back
  rw [List.map_reverse, List.reverse_reverse, List.map_map]
  conv_rhs => rw [← List.map_id ps]
  apply List.map_congr_left
  intro p _
  simp

theorem mem_back {c : K} {ps : List (K × K)} {p : K × K} : p ∈ back c ps ↔ (c - p.1, p.2) ∈ ps := by
  unfold back
  simp only [List.mem_reverse, List.mem_map]
  constructor
  · rintro ⟨q, hq, rfl⟩
    simpa using hq
  · intro h
    exact ⟨_, h, by simp⟩

theorem back_sorted {c : K} {ps : List (K × K)} (h : ps.Pairwise (fun p q => p.1 < q.1)) :
    (back c ps).Pairwise (fun p q => p.1 < q.1) := by
  unfold back
  rw [List.pairwise_reverse, List.pairwise_map]
  exact h.imp (fun h => by simpa using h)

theorem sorted_ext {k k' : List (K × K)} (h : k.Pairwise (fun p q => p.1 < q.1)) (h' : k'.Pairwise (fun p q => p.1 < q.1))
    (hm : ∀ p, p ∈ k ↔ p ∈ k') : k = k' := by
  have hp : k.Perm k' := (List.perm_ext_iff_of_nodup (h.imp (fun h e => by rw [e] at h; exact lt_irrefl _ h))
    (h'.imp (fun h e => by rw [e] at h; exact lt_irrefl _ h))).2 hm
  exact hp.eq_of_pairwise (fun a b _ _ h1 h2 => absurd (h1.trans h2) (lt_irrefl _)) h h'

theorem edge_unique {nb : Nat} {t0 s0 : K} {far : Prop} {X Y a b a' b' : List (K × K)} (h : Edge nb t0 s0 far X Y a b)
    (h' : Edge nb t0 s0 far X Y a' b') : a = a' ∧ b = b' := by
  obtain ⟨x, X', rfl, h⟩ := h
  obtain ⟨_, _, he, h'⟩ := h'
  obtain ⟨rfl, rfl⟩ := List.cons.inj he
  rcases h with ⟨f, g, rfl, rfl⟩ | ⟨f, g, rfl, rfl⟩ | ⟨f, rfl, rfl⟩ <;>
    rcases h' with ⟨f', g', rfl, rfl⟩ | ⟨f', g', rfl, rfl⟩ | ⟨f', rfl, rfl⟩ <;> first | exact ⟨rfl, rfl⟩ | contradiction

theorem added_unique {nb : Nat} {t0 s0 : K} {mx mn a b a' b' : List (K × K)} (h : Added nb t0 s0 mx mn a b)
    (h' : Added nb t0 s0 mx mn a' b') : a = a' ∧ b = b' := by
  obtain ⟨x, y, hx, hy, h⟩ := h
  obtain ⟨x', y', hx', hy', h'⟩ := h'
  obtain rfl := Option.some.inj (hx.symm.trans hx')
  obtain rfl := Option.some.inj (hy.symm.trans hy')
  rcases h with ⟨f, h⟩ | ⟨f, h⟩ <;> rcases h' with ⟨f', h'⟩ | ⟨f', h'⟩
  · exact edge_unique h h'
  · exact absurd (f.trans f') (lt_irrefl _)
  · exact absurd (f.trans f') (lt_irrefl _)
  · exact (edge_unique h h').symm

/-- The mirror rule leaves no choice. -/
theorem EnvelopeKnots_unique {nb : Nat} {t0 s0 t1 s1 : K} {mx mn kx kn kx' kn' : List (K × K)}
    (h : EnvelopeKnots nb t0 s0 t1 s1 mx mn kx kn) (h' : EnvelopeKnots nb t0 s0 t1 s1 mx mn kx' kn') : kx = kx' ∧ kn = kn' := by
  obtain ⟨lx, ln, rx, rn, a, b, ⟨c1, c2⟩, d1, d2⟩ := h
  obtain ⟨lx', ln', rx', rn', a', b', ⟨c1', c2'⟩, d1', d2'⟩ := h'
  obtain ⟨rfl, rfl⟩ := added_unique a a'
  obtain ⟨e1, e2⟩ := added_unique b b'
  have e1 : rx = rx' := by rw [← back_back (t0 + t1) rx, e1, back_back]
  have e2 : rn = rn' := by rw [← back_back (t0 + t1) rn, e2, back_back]
  subst e1 e2
  exact ⟨sorted_ext c1 c1' (fun p => by rw [c2, c2']), sorted_ext d1 d1' (fun p => by rw [d2, d2'])⟩

/-- The mirror rule treats both directions of time alike. -/
theorem EnvelopeKnots_back {nb : Nat} {t0 s0 t1 s1 : K} {mx mn kx kn : List (K × K)}
    (h : EnvelopeKnots nb t0 s0 t1 s1 mx mn kx kn) :
    EnvelopeKnots nb t0 s1 t1 s0 (back (t0 + t1) mx) (back (t0 + t1) mn) (back (t0 + t1) kx) (back (t0 + t1) kn) := by
  obtain ⟨lx, ln, rx, rn, a, b, ⟨c1, c2⟩, d1, d2⟩ := h
  refine ⟨_, _, back (t0 + t1) lx, back (t0 + t1) ln, b, ?_, ⟨back_sorted c1, fun p => ?_⟩, back_sorted d1, fun p => ?_⟩
  · simpa only [back_back] using a
  · simp only [mem_back, c2]
    constructor <;> (rintro (h | h | h) <;> simp [h])
  · simp only [mem_back, d2]
    constructor <;> (rintro (h | h | h) <;> simp [h])

end EMD
end PyEMD
