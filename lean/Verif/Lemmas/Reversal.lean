import Verif.Props.Mirror
import Verif.Props.Affine
import Verif.Props.Spline
import Verif.Spec.Reversal

/-!
# Signals run backwards
-/

set_option linter.unusedSectionVars false

namespace PyEMD
namespace EMD
open Spec
open PyEMD.Spec (Cubic IsNatural IsNatural.unique)

variable {K : Type} [Field K] [LinearOrder K] [IsStrictOrderedRing K] [FloorRing K]

/-! ## Detection -/

theorem sAt_reverse (S : List K) (i : Nat) (h : i < S.length) : sAt S.reverse i = sAt S (S.length - 1 - i) := by
  unfold sAt
  rw [getD_lt _ _ _ (by simpa using h), getD_lt _ _ _ (by omega), List.getElem_reverse]

theorem Spec.NoTies.reverse {S : List K} (h : NoTies S) : NoTies S.reverse := by
  intro i hi
  rw [List.length_reverse] at hi
  have := h (S.length - 1 - (i + 1)) (by omega)
  rw [List.getElem?_reverse (by omega), List.getElem?_reverse (by omega)]
  rw [show S.length - 1 - (i + 1) + 1 = S.length - 1 - i by omega] at this
  exact this.symm

theorem sAt_of_getElem? {S : List K} {i : Nat} {v : K} (h : S[i]? = some v) : i < S.length ∧ sAt S i = v := by
  obtain ⟨h1, h2⟩ := List.getElem?_eq_some_iff.1 h
  exact ⟨h1, by unfold sAt; rw [getD_lt _ _ _ h1, h2]⟩

theorem mem_maxima_noTies {S : List K} (h : NoTies S) {m : Nat} :
    m ∈ reported isPos isNeg S ↔ 1 ≤ m ∧ m + 1 < S.length ∧ sAt S (m - 1) < sAt S m ∧ sAt S (m + 1) < sAt S m := by
  rw [mem_maxima]
  constructor
  · rintro (⟨l, r, ⟨h1, h2, v, a, b, hv, ha, hb, hav, hbv⟩, -, hm⟩ | ⟨r, ⟨h1, ⟨v, b, hv, hb, -⟩, -⟩, -⟩)
    · have hlr : l = r := by
        by_contra hne
        have hb' := (sAt_of_getElem? hb).1
        exact h l (by omega) ((hv l (le_refl _) (by omega)).trans (hv (l + 1) (by omega) (by omega)).symm)
      subst hlr
      have : m = l := by rcases hm with h | ⟨_, h | h⟩ <;> omega
      subst this
      obtain ⟨-, ha'⟩ := sAt_of_getElem? ha
      obtain ⟨hb1, hb'⟩ := sAt_of_getElem? hb
      obtain ⟨-, hv'⟩ := sAt_of_getElem? (hv m (le_refl _) (le_refl _))
      exact ⟨h1, hb1, by rw [ha', hv']; exact hav, by rw [hb', hv']; exact hbv⟩
    · have hb' := (sAt_of_getElem? hb).1
      exact absurd ((hv 0 (by omega)).trans (hv 1 (by omega)).symm) (h 0 (by omega))
  · rintro ⟨h1, h2, h3, h4⟩
    refine .inl ⟨m, m, ⟨h1, le_refl _, sAt S m, _, _, ?_, getElem?_sAt (by omega), getElem?_sAt h2, h3, h4⟩, by omega, .inl (by omega)⟩
    intro i hi hi'
    have : i = m := by omega
    subst this
    exact getElem?_sAt (by omega)

/-- Index lists run backwards. -/
def revIdx (n : Nat) (l : List Nat) : List Nat := (l.map (fun i => n - 1 - i)).reverse

theorem sorted_nat_ext {a b : List Nat} (ha : a.Pairwise (· < ·)) (hb : b.Pairwise (· < ·)) (h : ∀ i, i ∈ a ↔ i ∈ b) : a = b :=
  ((List.perm_ext_iff_of_nodup (ha.imp (fun h => h.ne)) (hb.imp (fun h => h.ne))).2 h).eq_of_pairwise
    (fun _ _ _ _ h1 h2 => absurd (h1.trans h2) (lt_irrefl _)) ha hb

theorem revIdx_sorted {n : Nat} {l : List Nat} (h : l.Pairwise (· < ·)) (hl : ∀ i ∈ l, i < n) : (revIdx n l).Pairwise (· < ·) := by
  unfold revIdx
  rw [List.pairwise_reverse, List.pairwise_map]
  refine (List.pairwise_iff_forall_sublist.2 ?_)
  intro a b hab
  have h1 := List.pairwise_iff_forall_sublist.1 h hab
  have h2 := hl b (hab.subset (by simp))
  omega

theorem mem_revIdx {n : Nat} {l : List Nat} (hl : ∀ i ∈ l, i < n) {i : Nat} : i ∈ revIdx n l ↔ i < n ∧ n - 1 - i ∈ l := by
  unfold revIdx
  simp only [List.mem_reverse, List.mem_map]
  constructor
  · rintro ⟨j, hj, rfl⟩
    have := hl j hj
    exact ⟨by omega, by rwa [show n - 1 - (n - 1 - j) = j by omega]⟩
  · rintro ⟨h1, h2⟩
    exact ⟨_, h2, by omega⟩

theorem maxima_reverse {S : List K} (h : NoTies S) : reported isPos isNeg S.reverse = revIdx S.length (reported isPos isNeg S) := by
  have hl : ∀ i ∈ reported isPos isNeg S, i < S.length := fun i hi => by
    have := reported_lt isPos_zero isNeg_zero hi
    omega
  refine sorted_nat_ext (reported_spec isPos isNeg isPos_zero isNeg_zero _).1
    (revIdx_sorted (reported_spec isPos isNeg isPos_zero isNeg_zero _).1 hl) ?_
  intro i
  rw [mem_revIdx hl, mem_maxima_noTies h, mem_maxima_noTies h.reverse, List.length_reverse]
  constructor
  · rintro ⟨h1, h2, h3, h4⟩
    rw [sAt_reverse _ _ (by omega), sAt_reverse _ _ (by omega)] at h3 h4
    refine ⟨by omega, by omega, by omega, ?_, ?_⟩
    · rwa [show S.length - 1 - i - 1 = S.length - 1 - (i + 1) by omega]
    · rwa [show S.length - 1 - i + 1 = S.length - 1 - (i - 1) by omega]
  · rintro ⟨h0, h1, h2, h3, h4⟩
    refine ⟨by omega, by omega, ?_, ?_⟩
    · rw [sAt_reverse _ _ (by omega), sAt_reverse _ _ (by omega)]
      rwa [show S.length - 1 - (i - 1) = S.length - 1 - i + 1 by omega]
    · rw [sAt_reverse _ _ (by omega), sAt_reverse _ _ (by omega)]
      rwa [show S.length - 1 - (i + 1) = S.length - 1 - i - 1 by omega]

theorem minima_reverse {S : List K} (h : NoTies S) : reported isNeg isPos S.reverse = revIdx S.length (reported isNeg isPos S) := by
  have hn : NoTies (S.map (fun x => -x)) := by
    intro i hi
    rw [List.length_map] at hi
    have := h i hi
    simp only [List.getElem?_map, ne_eq]
    intro hc
    rw [List.getElem?_eq_getElem (by omega), List.getElem?_eq_getElem (by omega)] at hc this
    simp at hc
    exact this (by rw [hc])
  have h1 := maxima_reverse hn
  rw [← List.map_reverse, (reported_neg S.reverse).1, (reported_neg S).1, List.length_map] at h1
  exact h1

/-! ## Zero crossings -/

theorem isSignChange_reverse {S : List K} {i : Nat} (hi : i + 1 < S.length) : IsSignChange S.reverse i ↔ IsSignChange S (S.length - 2 - i) := by
  unfold IsSignChange
  rw [List.getElem?_reverse (by omega), List.getElem?_reverse (by omega), show S.length - 1 - (i + 1) = S.length - 2 - i by omega,
    show S.length - 1 - i = S.length - 2 - i + 1 by omega]
  constructor
  · rintro ⟨x, y, h1, h2, h3⟩
    exact ⟨y, x, h2, h1, h3.elim (fun h => .inr ⟨h.2, h.1⟩) (fun h => .inl ⟨h.2, h.1⟩)⟩
  · rintro ⟨x, y, h1, h2, h3⟩
    exact ⟨y, x, h2, h1, h3.elim (fun h => .inr ⟨h.2, h.1⟩) (fun h => .inl ⟨h.2, h.1⟩)⟩

theorem Spec.IsSignChange.lt {S : List K} {i : Nat} (h : IsSignChange S i) : i + 1 < S.length := by
  obtain ⟨_, _, _, h, _⟩ := h
  exact (sAt_of_getElem? h).1

theorem Spec.IsZeroRun.lt {S : List K} {l r : Nat} (h : IsZeroRun S l r) : r < S.length := (sAt_of_getElem? (h.2.1 r h.1 (le_refl _))).1

theorem isZeroRun_reverse {S : List K} {l r : Nat} (h : IsZeroRun S l r) : IsZeroRun S.reverse (S.length - 1 - r) (S.length - 1 - l) := by
  have hr := h.lt
  obtain ⟨h1, h2, h3, h4⟩ := h
  refine ⟨by omega, ?_, ?_, ?_⟩
  · intro i hi hi'
    rw [List.getElem?_reverse (by omega)]
    exact h2 _ (by omega) (by omega)
  · by_cases hc : r + 1 < S.length
    · right
      rw [List.getElem?_reverse (by omega), show S.length - 1 - (S.length - 1 - r - 1) = r + 1 by omega]
      exact h4
    · left; omega
  · by_cases hl : l = 0
    · rw [List.getElem?_eq_none (by rw [List.length_reverse]; omega)]
      simp
    · rw [List.getElem?_reverse (by omega), show S.length - 1 - (S.length - 1 - l + 1) = l - 1 by omega]
      exact h3.resolve_left hl

theorem zeroCrossings_reverse (S : List K) : (zeroCrossings S.reverse).length = (zeroCrossings S).length := by
  have key : ∀ S : List K, (zeroCrossings S.reverse).length ≤ (zeroCrossings S).length := by
    intro S
    have hz : ∀ S : List K, ∃ C : List Nat, ∃ R : List (Nat × Nat), C.Nodup ∧ R.Nodup ∧ (∀ i, i ∈ C ↔ IsSignChange S i) ∧
        (∀ l r, (l, r) ∈ R ↔ IsZeroRun S l r) ∧ (zeroCrossings S).length = C.length + R.length := by
      intro S
      obtain ⟨C, Z, R, c1, c2, r1, r2, -, -, e, -⟩ := C17_zero_crossings .simple (timeArr S.length) S _ (findExtremaSimple_eq _ S (timeArr_length _))
      refine ⟨C, R, c1.imp (fun h => h.ne), ?_, c2, r2, e⟩
      have : R.Pairwise (fun p q => p ≠ q) := by
        refine List.pairwise_iff_forall_sublist.2 ?_
        intro p q hpq he
        subst he
        have h1 := List.pairwise_iff_forall_sublist.1 r1 hpq
        have h2 := ((r2 p.1 p.2).1 (hpq.subset (by simp))).1
        omega
      exact this
    obtain ⟨C, R, c1, r1, c2, r2, e⟩ := hz S
    obtain ⟨C', R', c1', r1', c2', r2', e'⟩ := hz S.reverse
    rw [e, e']
    have hC : C'.length ≤ C.length := by
      have hs : (C'.map (fun i => S.length - 2 - i)) ⊆ C := by
        intro j hj
        obtain ⟨i, hi, rfl⟩ := List.mem_map.1 hj
        have hi := (c2' i).1 hi
        have hl := hi.lt
        rw [List.length_reverse] at hl
        exact (c2 _).2 ((isSignChange_reverse hl).1 hi)
      have hnd : (C'.map (fun i => S.length - 2 - i)).Nodup := by
        refine (List.nodup_map_iff_inj_on c1').2 ?_
        intro i hi j hj hij
        have h1 := ((c2' i).1 hi).lt
        have h2 := ((c2' j).1 hj).lt
        rw [List.length_reverse] at h1 h2
        omega
      have := (hnd.subperm hs).length_le
      simpa using this
    have hR : R'.length ≤ R.length := by
      have hs : (R'.map (fun p => (S.length - 1 - p.2, S.length - 1 - p.1))) ⊆ R := by
        intro j hj
        obtain ⟨⟨l, r⟩, hi, rfl⟩ := List.mem_map.1 hj
        have hi := isZeroRun_reverse ((r2' l r).1 hi)
        rw [List.reverse_reverse, List.length_reverse] at hi
        exact (r2 _ _).2 hi
      have hnd : (R'.map (fun p => (S.length - 1 - p.2, S.length - 1 - p.1))).Nodup := by
        refine (List.nodup_map_iff_inj_on r1').2 ?_
        rintro ⟨l, r⟩ hi ⟨l', r'⟩ hj hij
        have h1 := ((r2' l r).1 hi)
        have h2 := ((r2' l' r').1 hj)
        have h3 := h1.lt
        have h4 := h2.lt
        have h5 := h1.1
        have h6 := h2.1
        rw [List.length_reverse] at h3 h4
        simp only [Prod.mk.injEq] at hij ⊢
        omega
      have := (hnd.subperm hs).length_le
      simpa using this
    omega
  refine le_antisymm (key S) ?_
  have := key S.reverse
  rwa [List.reverse_reverse] at this

/-! ## Knots -/

theorem timeArr_back (n : Nat) : ((timeArr n : List K).map (fun x => ((n : K) - 1) - x)).reverse = timeArr n := by
  apply List.ext_getElem
  · simp [timeArr_length]
  · intro i h1 h2
    rw [timeArr_length] at h2
    simp only [timeArr, List.getElem_reverse, List.getElem_map, List.getElem_range, List.length_map, List.length_range]
    rw [show ((n - 1 - i : Nat) : K) = (n : K) - 1 - (i : K) by
      rw [Nat.cast_sub (by omega), Nat.cast_sub (by omega), Nat.cast_one]]
    ring

theorem zip_revIdx (S : List K) {l : List Nat} (hl : ∀ i ∈ l, i < S.length) :
    ((revIdx S.length l).map (sAt (timeArr S.length : List K))).zip ((revIdx S.length l).map (sAt S.reverse)) =
      back ((S.length : K) - 1) ((l.map (sAt (timeArr S.length : List K))).zip (l.map (sAt S))) := by
  unfold back revIdx
  rw [List.zip_map', List.zip_map', List.map_reverse, List.map_map, List.map_map]
  congr 1
  apply List.map_congr_left
  intro i hi
  have h := hl i hi
  have ht : ∀ j, j < S.length → sAt (timeArr S.length : List K) j = (j : K) := by
    intro j hj
    have := timeArr_getD (K := K) S.length (j : Int) (by omega) (by omega)
    simpa [sAt] using this
  simp only [Function.comp_def]
  rw [ht _ (by omega), ht _ h, sAt_reverse _ _ (by omega), show S.length - 1 - (S.length - 1 - i) = i by omega, Nat.cast_sub (by omega), Nat.cast_sub (by omega),
    Nat.cast_one]

theorem reported_lt_length {S : List K} {i : Nat} :
    (i ∈ reported isPos isNeg S → i < S.length) ∧ (i ∈ reported isNeg isPos S → i < S.length) :=
  ⟨fun h => by have := reported_lt isPos_zero isNeg_zero h; omega, fun h => by have := reported_lt isNeg_zero isPos_zero h; omega⟩

/-- Detection on the reversed signal. -/
theorem findExtrema_reverse {S : List K} (h : NoTies S) :
    ∃ e e', findExtrema .simple (timeArr S.length) S = .ok e ∧ findExtrema .simple (timeArr S.length) S.reverse = .ok e' ∧
      e'.maxPos.zip e'.maxVal = back ((S.length : K) - 1) (e.maxPos.zip e.maxVal) ∧
      e'.minPos.zip e'.minVal = back ((S.length : K) - 1) (e.minPos.zip e.minVal) ∧
      e'.maxPos.length = e.maxPos.length ∧ e'.minPos.length = e.minPos.length ∧ e'.indzer.length = e.indzer.length := by
  refine ⟨_, _, findExtremaSimple_eq _ S (timeArr_length _), findExtremaSimple_eq _ S.reverse (by rw [timeArr_length, List.length_reverse]), ?_, ?_, ?_, ?_, ?_⟩
  · dsimp only
    rw [maxima_reverse h]
    exact zip_revIdx S (fun i hi => reported_lt_length.1 hi)
  · dsimp only
    rw [minima_reverse h]
    exact zip_revIdx S (fun i hi => reported_lt_length.2 hi)
  · dsimp only
    rw [maxima_reverse h]
    simp [revIdx]
  · dsimp only
    rw [minima_reverse h]
    simp [revIdx]
  · exact zeroCrossings_reverse S

theorem countExt_reverse {cfg : Cfg K} (hd : cfg.detection = .simple) {S : List K} (h : NoTies S) :
    countExt cfg (timeArr S.length) S.reverse = countExt cfg (timeArr S.length) S := by
  obtain ⟨e, e', h1, h2, -, -, h3, h4, h5⟩ := findExtrema_reverse h
  unfold countExt
  rw [hd, h1, h2]
  simp only [bind, Except.bind, pure, Except.pure, h3, h4, h5]

theorem preparePoints_reverse {nb : Int} (hnb : 1 ≤ nb) {S : List K} {e e' : Extrema K} (h1 : findExtrema .simple (timeArr S.length) S = .ok e)
    (h2 : findExtrema .simple (timeArr S.length) S.reverse = .ok e')
    (hx : e'.maxPos.zip e'.maxVal = back ((S.length : K) - 1) (e.maxPos.zip e.maxVal))
    (hn : e'.minPos.zip e'.minVal = back ((S.length : K) - 1) (e.minPos.zip e.minVal))
    (h3 : 3 ≤ e.maxPos.length + e.minPos.length) (h3' : 3 ≤ e'.maxPos.length + e'.minPos.length) :
    ∃ kx kn, preparePoints .simple nb (timeArr S.length) S e = .ok (kx, kn) ∧
      preparePoints .simple nb (timeArr S.length) S.reverse e' = .ok (back ((S.length : K) - 1) kx, back ((S.length : K) - 1) kn) ∧
      GoodKnots (timeArr S.length) S e.maxPos e.maxVal kx ∧ GoodKnots (timeArr S.length) S e.minPos e.minVal kn := by
  obtain ⟨k, rfl⟩ := Int.eq_ofNat_of_zero_le (show 0 ≤ nb by omega)
  have hk : 1 ≤ k := by omega
  obtain ⟨kx, kn, s0, s1, a1, a2, a3, a4⟩ := C81_mirror_rule k hk S (timeArr S.length) rfl e h1 h3
  have hl : S.reverse.length = S.length := List.length_reverse
  obtain ⟨kx', kn', s0', s1', b1, b2, b3, b4⟩ := C81_mirror_rule k hk S.reverse (timeArr S.length) (by rw [hl]; rfl) e' h2 h3'
  obtain ⟨gx, gn, c1, c2, c3⟩ := C21_knots (k : Int) hnb S (timeArr S.length) rfl e h1 h3
  have hc := a3.symm.trans c1
  injection hc with hc
  injection hc with hc1 hc2
  subst hc1 hc2
  rw [List.head?_reverse] at b1
  rw [List.getLast?_reverse] at b2
  obtain rfl := Option.some.inj (a2.symm.trans b1)
  obtain rfl := Option.some.inj (a1.symm.trans b2)
  have a5 := EnvelopeKnots_back a4
  rw [zero_add] at a5
  rw [hx, hn, hl] at b4
  obtain ⟨rfl, rfl⟩ := EnvelopeKnots_unique a5 b4
  exact ⟨kx, kn, a3, b3, c2, c3⟩

/-! ## Envelopes -/

theorem cubic3_reverse {x0 x1 x2 y0 y1 y2 c : K} (h0 : x0 < x1) (h1 : x1 < x2) {T : List K} (hs : T.Pairwise (· ≤ ·))
    (hT : (T.map (fun x => c - x)).reverse = T) :
    RelX (fun r r' => r'.2 = r.2.reverse) (cubicSpline3pts [x0, x1, x2] [y0, y1, y2] T)
      (cubicSpline3pts [c - x2, c - x1, c - x0] [y2, y1, y0] T) := by
  obtain ⟨p, q, n, e⟩ := C24_natural_spline x0 x1 x2 y0 y1 y2 h0 h1
  obtain ⟨p', q', n', e'⟩ := C24_natural_spline (c - x2) (c - x1) (c - x0) y2 y1 y0 (by linarith) (by linarith)
  rw [e T hs, e' T hs]
  show List.map _ _ = (List.map _ _).reverse
  have hv : ∀ t, p'.val (c - t) = q.val t ∧ q'.val (c - t) = p.val t := by
    let P : Cubic K := ⟨q.c0 + q.c1 * c + q.c2 * c ^ 2 + q.c3 * c ^ 3, -(q.c1 + 2 * q.c2 * c + 3 * q.c3 * c ^ 2), q.c2 + 3 * q.c3 * c, -q.c3⟩
    let Q : Cubic K := ⟨p.c0 + p.c1 * c + p.c2 * c ^ 2 + p.c3 * c ^ 3, -(p.c1 + 2 * p.c2 * c + 3 * p.c3 * c ^ 2), p.c2 + 3 * p.c3 * c, -p.c3⟩
    have hP : ∀ t, P.val t = q.val (c - t) := by intro t; simp only [P, Cubic.val]; ring
    have hQ : ∀ t, Q.val t = p.val (c - t) := by intro t; simp only [Q, Cubic.val]; ring
    have hP1 : ∀ t, P.d1 t = -q.d1 (c - t) := by intro t; simp only [P, Cubic.d1]; ring
    have hQ1 : ∀ t, Q.d1 t = -p.d1 (c - t) := by intro t; simp only [Q, Cubic.d1]; ring
    have hP2 : ∀ t, P.d2 t = q.d2 (c - t) := by intro t; simp only [P, Cubic.d2]; ring
    have hQ2 : ∀ t, Q.d2 t = p.d2 (c - t) := by intro t; simp only [Q, Cubic.d2]; ring
    have hN : IsNatural (c - x2) (c - x1) (c - x0) y2 y1 y0 P Q := by
      constructor <;> simp only [hP, hQ, hP1, hQ1, hP2, hQ2, sub_sub_cancel]
      · exact n.v2
      · exact n.v1'
      · exact n.v1
      · exact n.v0
      · rw [n.smooth1]
      · rw [n.smooth2]
      · exact n.nat2
      · exact n.nat0
    intro t
    obtain ⟨u1, u2⟩ := IsNatural.unique (by linarith) (by linarith) n' hN (c - t)
    rw [u1, u2, hP, hQ, sub_sub_cancel]
    exact ⟨rfl, rfl⟩
  conv_lhs => rw [← hT]
  rw [List.filter_reverse, List.map_reverse, List.filter_map, List.map_map]
  congr 1
  have hf : T.filter ((fun t => decide (c - x2 ≤ t) && decide (t ≤ c - x0)) ∘ (fun x => c - x)) =
      T.filter (fun t => decide (x0 ≤ t) && decide (t ≤ x2)) := by
    apply List.filter_congr
    intro t _
    simp only [Function.comp_def, sub_le_sub_iff_left]
    rw [Bool.and_comm]
  rw [hf]
  apply List.map_congr_left
  intro t _
  simp only [Function.comp_def, sub_lt_sub_iff_left, (hv t).1, (hv t).2]
  rcases lt_trichotomy t x1 with h | h | h
  · rw [if_neg (not_lt.2 h.le), if_pos h]
  · subst h
    rw [if_neg (lt_irrefl _), if_neg (lt_irrefl _), n.v1, n.v1']
  · rw [if_pos h, if_neg (not_lt.2 h.le)]

theorem splinePoints_reverse {sp : SciPy K} (hr : ReversibleAll sp) (kind : SplineKind) {n : Nat} {k : List (K × K)}
    (three : 3 ≤ k.length) (increasing : k.Pairwise (fun p q => p.1 < q.1))
    (hc : ∃ p q, k.head? = some p ∧ k.getLast? = some q ∧ ∀ τ ∈ (timeArr n : List K), p.1 ≤ τ ∧ τ ≤ q.1) :
    RelX (fun r r' => r'.2 = r.2.reverse) (splinePoints sp kind (timeArr n) k) (splinePoints sp kind (timeArr n) (back ((n : K) - 1) k)) := by
  obtain ⟨p, q, hp, hq, hcov⟩ := hc
  have hT := timeArr_back (K := K) n
  generalize (n : K) - 1 = c at hT ⊢
  have hne : k ≠ [] := by rintro rfl; cases hp
  have get : ∀ (k : List (K × K)) (p q : K × K), k.head? = some p → k.getLast? = some q →
      pyGet (k.map (·.1)) 0 = .ok p.1 ∧ pyGet (k.map (·.1)) (-1) = .ok q.1 := by
    intro k p q hp hq
    have hne : k ≠ [] := by rintro rfl; cases hp
    have hX0 : (k.map (·.1)) ≠ [] := by simpa using hne
    constructor
    · match k, hp with
      | _ :: _, hp => simp at hp; subst hp; exact pyGet_cons _ _
    · rw [pyGet_last _ hX0, List.getLast_map hX0]
      rw [List.getLast?_eq_some_getLast hne] at hq
      injection hq with hq
      rw [hq]
  obtain ⟨g0, gL⟩ := get k p q hp hq
  have hbp : (back c k).head? = some (c - q.1, q.2) := by
    unfold back
    rw [List.head?_reverse, List.getLast?_map, hq]
    rfl
  have hbq : (back c k).getLast? = some (c - p.1, p.2) := by
    unfold back
    rw [List.getLast?_reverse, List.head?_map, hp]
    rfl
  obtain ⟨b0, bL⟩ := get (back c k) _ _ hbp hbq
  have hX : (back c k).map (·.1) = ((k.map (·.1)).map (fun x => c - x)).reverse := by
    unfold back
    simp only [List.map_reverse, List.map_map, Function.comp_def]
  have hY : (back c k).map (·.2) = (k.map (·.2)).reverse := by
    unfold back
    simp only [List.map_reverse, List.map_map, Function.comp_def]
  have hlen : (back c k).length = k.length := by simp [back]
  have hcov' : ∀ τ ∈ (timeArr n : List K), c - q.1 ≤ τ ∧ τ ≤ c - p.1 := by
    intro τ hτ
    rw [← hT] at hτ
    simp only [List.mem_reverse, List.mem_map] at hτ
    obtain ⟨x, hx, rfl⟩ := hτ
    have := hcov x hx
    exact ⟨by linarith [this.2], by linarith [this.1]⟩
  have f1 : (timeArr n : List K).filter (fun τ => decide (p.1 ≤ τ) && decide (τ ≤ q.1)) = timeArr n := by
    rw [List.filter_eq_self]
    intro τ hτ
    simp [hcov τ hτ]
  have f2 : (timeArr n : List K).filter (fun τ => decide (c - q.1 ≤ τ) && decide (τ ≤ c - p.1)) = timeArr n := by
    rw [List.filter_eq_self]
    intro τ hτ
    have := hcov' τ hτ
    rw [decide_eq_true this.1, decide_eq_true this.2]
    rfl
  have use : ∀ f : Interp K, Reversible f → ∀ t0 : List K,
      RelX (fun r r' : List K × List K => r'.2 = r.2.reverse) (do return (t0, ← ofScipy (f (k.map (·.1)) (k.map (·.2)) (timeArr n))))
        (do return (t0, ← ofScipy (f ((back c k).map (·.1)) ((back c k).map (·.2)) (timeArr n)))) := by
    intro f hf t0
    have := hf c (k.map (·.1)) (k.map (·.2)) (timeArr n) (by simpa using three) (by simp) (by rw [List.pairwise_map]; exact increasing)
      (fun τ hτ => ⟨p.1, q.1, by rw [List.head?_map, hp]; rfl, by rw [List.getLast?_map, hq]; rfl, hcov τ hτ⟩)
    rw [hX, hY]
    rw [hT] at this
    rw [this]
    cases f (k.map (·.1)) (k.map (·.2)) (timeArr n) with
    | none => rfl
    | some v => rfl
  obtain ⟨r1, r2, r3, r4, r5, r6, r7⟩ := hr
  unfold splinePoints
  simp only [g0, gL, b0, bL, ok_bind, f1, f2, hlen]
  cases kind with
  | akima => exact use _ r1 _
  | cubic =>
    dsimp only
    split
    · exact use _ r2 _
    · next h3 =>
      have h3 : k.length = 3 := by omega
      match k, h3, increasing with
      | [a, b, d], _, inc =>
        simp only [List.pairwise_cons, List.mem_cons, List.not_mem_nil, or_false, forall_eq_or_imp, forall_eq] at inc
        exact cubic3_reverse inc.1.1 inc.2.1 (timeArr_sorted n) hT
  | pchip => exact use _ r3 _
  | cubicHermite => exact use _ r4 _
  | slinear => exact use _ r5 _
  | quadratic => exact use _ r6 _
  | linear => exact use _ r7 _
  | unknown => rfl

end EMD
end PyEMD
