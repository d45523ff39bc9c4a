import Verif.Props.Points
import Verif.Props.Spline
import Verif.Spec.Contract

/-!
# Absence of exceptions with simple detection (C22)
-/

set_option linter.unusedSectionVars false

namespace PyEMD
namespace EMD
open Spec PyEMD.Spec

variable {K : Type} [Field K] [LinearOrder K] [IsStrictOrderedRing K] [FloorRing K]

/-- Every time stamp lies within good knots. -/
theorem Spec.GoodKnots.covers {n : Nat} {S pos val : List K} {k : List (K × K)} (h : GoodKnots (timeArr n) S pos val k) :
    ∃ p q, k.head? = some p ∧ k.getLast? = some q ∧ ∀ τ ∈ (timeArr n : List K), p.1 ≤ τ ∧ τ ≤ q.1 := by
  obtain ⟨p, t, h1, h2, h3⟩ := h.first
  obtain ⟨q, t', h4, h5, h6⟩ := h.last
  refine ⟨p, q, h1, h4, ?_⟩
  intro τ hτ
  unfold timeArr at *
  rw [List.mem_map] at hτ
  obtain ⟨i, hi, rfl⟩ := hτ
  rw [List.mem_range] at hi
  obtain ⟨m, rfl⟩ : ∃ m, n = m + 1 := ⟨n - 1, by omega⟩
  rw [List.range_succ_eq_map] at h2
  simp at h2
  subst h2
  rw [List.range_succ] at h5
  simp at h5
  subst h5
  constructor
  · exact le_trans h3 (Nat.cast_nonneg i)
  · refine le_trans ?_ h6
    exact_mod_cast (by omega : i ≤ m)

theorem timeArr_sorted (n : Nat) : (timeArr n : List K).Pairwise (· ≤ ·) := by
  unfold timeArr
  rw [List.pairwise_map]
  exact List.pairwise_lt_range.imp (fun h => by exact_mod_cast h.le)

/-- Envelopes over increasing knots that cover the time stamps exist and have one value per time stamp. -/
theorem splinePoints_cover {sp : SciPy K} (hsp : AcceptsAll sp) {kind : SplineKind} (hk : kind ≠ .unknown) {T : List K}
    (hT : T.Pairwise (· ≤ ·)) {k : List (K × K)} (three : 3 ≤ k.length) (increasing : k.Pairwise (fun p q => p.1 < q.1))
    (hc : ∃ p q, k.head? = some p ∧ k.getLast? = some q ∧ ∀ τ ∈ T, p.1 ≤ τ ∧ τ ≤ q.1) :
    ∃ t q, splinePoints sp kind T k = .ok (t, q) ∧ q.length = T.length := by
  obtain ⟨p, q, hp, hq, hcov⟩ := hc
  have hne : k ≠ [] := by rintro rfl; cases hp
  have hX0 : (k.map (·.1)) ≠ [] := by simpa using hne
  have e0 : pyGet (k.map (·.1)) 0 = .ok p.1 := by
    match k, hp with
    | _ :: _, hp => simp at hp; subst hp; exact pyGet_cons _ _
  have eL : pyGet (k.map (·.1)) (-1) = .ok q.1 := by
    rw [pyGet_last _ hX0, List.getLast_map hX0]
    rw [List.getLast?_eq_some_getLast hne] at hq
    injection hq with hq
    rw [hq]
  have efil : T.filter (fun τ => decide (p.1 ≤ τ) && decide (τ ≤ q.1)) = T := by
    rw [List.filter_eq_self]
    intro τ hτ
    simp [hcov τ hτ]
  have hacc : ∀ f : Interp K, Accepts f → ∃ v, f (k.map (·.1)) (k.map (·.2)) T = some v ∧ v.length = T.length := by
    intro f hf
    exact hf (k.map (·.1)) (k.map (·.2)) T (by simpa using three) (by simp)
      (by rw [List.pairwise_map]; exact increasing)
      (fun τ hτ => ⟨p.1, q.1, by simp [hp], by simp [List.getLast?_map, hq], (hcov τ hτ).1, (hcov τ hτ).2⟩)
  unfold splinePoints
  simp only [e0, eL, bind, Except.bind, efil, pure, Except.pure]
  obtain ⟨a1, a2, a3, a4, a5, a6, a7⟩ := hsp
  cases kind with
  | unknown => exact absurd rfl hk
  | akima => obtain ⟨v, h1, h2⟩ := hacc _ a1; exact ⟨_, v, by simp only [h1]; rfl, h2⟩
  | pchip => obtain ⟨v, h1, h2⟩ := hacc _ a3; exact ⟨_, v, by simp only [h1]; rfl, h2⟩
  | cubicHermite => obtain ⟨v, h1, h2⟩ := hacc _ a4; exact ⟨_, v, by simp only [h1]; rfl, h2⟩
  | slinear => obtain ⟨v, h1, h2⟩ := hacc _ a5; exact ⟨_, v, by simp only [h1]; rfl, h2⟩
  | quadratic => obtain ⟨v, h1, h2⟩ := hacc _ a6; exact ⟨_, v, by simp only [h1]; rfl, h2⟩
  | linear => obtain ⟨v, h1, h2⟩ := hacc _ a7; exact ⟨_, v, by simp only [h1]; rfl, h2⟩
  | cubic =>
    simp only []
    split
    · obtain ⟨v, h1, h2⟩ := hacc _ a2
      exact ⟨_, v, by simp only [h1]; rfl, h2⟩
    · have h3 : k.length = 3 := by omega
      match k, h3, increasing, hp, hq with
      | [k0, k1, k2], _, hi, hp, hq =>
        simp only [List.pairwise_cons, List.mem_cons, List.not_mem_nil, or_false] at hi
        obtain ⟨pp, qq, -, hs⟩ := C24_natural_spline k0.1 k1.1 k2.1 k0.2 k1.2 k2.2 (hi.1 k1 (.inl rfl)) (hi.2.1 k2 rfl)
        simp at hp hq
        subst hp
        subst hq
        refine ⟨_, _, hs _ hT, ?_⟩
        rw [efil, List.length_map]

/-- Envelopes over good knots exist and have one value per time stamp. -/
theorem splinePoints_ok {sp : SciPy K} (hsp : AcceptsAll sp) {kind : SplineKind} (hk : kind ≠ .unknown) {n : Nat} {S pos val : List K}
    {k : List (K × K)} (h : GoodKnots (timeArr n) S pos val k) :
    ∃ t q, splinePoints sp kind (timeArr n) k = .ok (t, q) ∧ q.length = n := by
  have := splinePoints_cover hsp hk (timeArr_sorted n) h.three h.increasing h.covers
  rwa [timeArr_length] at this

/-- One envelope-mean subtraction never raises. -/
theorem siftOnce_ok {sp : SciPy K} (hsp : AcceptsAll sp) {cfg : Cfg K} (hd : cfg.detection = .simple) (hnb : 1 ≤ cfg.nbsym)
    (hk : cfg.splineKind ≠ .unknown) {x : List K} {e z : Int} (h : countExt cfg (timeArr x.length) x = .ok (e, z)) (he : e > 2) :
    ∃ y a b, siftOnce sp cfg (timeArr x.length) x = .ok (y, a, b) := by
  obtain ⟨r, hr, rfl, rfl⟩ := countExt_spec h
  rw [hd] at hr
  obtain ⟨kmax, kmin, h1, g1, g2⟩ := C21_knots cfg.nbsym hnb x (timeArr x.length) rfl r hr (by omega)
  obtain ⟨t1, q1, s1, l1⟩ := splinePoints_ok hsp hk g1
  obtain ⟨t2, q2, s2, l2⟩ := splinePoints_ok hsp hk g2
  unfold siftOnce extractMaxMinSpline
  simp only [hd, hr, bind, Except.bind]
  rw [if_neg (by omega)]
  simp only [h1, s1, s2, pure, Except.pure]
  have hb : bcast (fun a b : K => a + b) q1 q2 = .ok (List.zipWith (fun a b => a + b) q1 q2) := by
    unfold bcast
    rw [if_pos (by omega)]
  rw [hb]
  simp only []
  unfold assignAll
  rw [if_pos (by simp [l1, l2])]
  exact ⟨_, _, _, rfl⟩

theorem countExt_ok {cfg : Cfg K} (hd : cfg.detection = .simple) (x : List K) : ∃ e z, countExt cfg (timeArr x.length) x = .ok (e, z) := by
  unfold countExt
  rw [hd]
  have := findExtremaSimple_eq (timeArr x.length : List K) x (timeArr_length _)
  simp only [findExtrema, this, bind, Except.bind]
  exact ⟨_, _, rfl⟩

theorem checkImf_ok (cfg : Cfg K) (a b : List K) (hb : b ≠ []) (p q : List (K × K)) : ∃ v, checkImf cfg a b p q = .ok v := by
  unfold checkImf
  split
  · exact ⟨_, rfl⟩
  · split
    · exact ⟨_, rfl⟩
    · simp only [pyMax_eq hb, pyMin_eq hb, bind, Except.bind, pure, Except.pure]
      split
      · exact ⟨_, rfl⟩
      · split
        · exact ⟨_, rfl⟩
        · split <;> exact ⟨_, rfl⟩

theorem siftBody_ok {sp : SciPy K} (hsp : AcceptsAll sp) {cfg : Cfg K} (hd : cfg.detection = .simple) (hnb : 1 ≤ cfg.nbsym)
    (hk : cfg.splineKind ≠ .unknown) (n : Nat) (hn : 0 < n) (s : Sift K) (hs : s.imf.length = n) :
    ∃ r, siftBody sp cfg (timeArr n) s = .ok r := by
  subst hs
  have hne : s.imf ≠ [] := List.ne_nil_of_length_pos hn
  unfold siftBody
  simp only []
  split
  · exact ⟨_, rfl⟩
  · obtain ⟨e, z, hc⟩ := countExt_ok hd s.imf
    simp only [hc, bind, Except.bind]
    split
    · next he =>
      obtain ⟨y, a, b, h1⟩ := siftOnce_ok hsp hd hnb hk hc he
      have hl := siftOnce_length h1
      simp only [h1]
      obtain ⟨e', z', hc'⟩ := countExt_ok hd y
      rw [hl] at hc'
      obtain ⟨v, hv⟩ := checkImf_ok cfg y s.imf hne a b
      split
      · split <;> exact ⟨_, rfl⟩
      · split
        · simp only [hc']
          split
          · exact ⟨_, rfl⟩
          · split <;> split <;> exact ⟨_, rfl⟩
        · simp only [hc', hv]
          split <;> exact ⟨_, rfl⟩
    · exact ⟨_, rfl⟩

theorem siftLoop_ok {sp : SciPy K} (hsp : AcceptsAll sp) {cfg : Cfg K} (hd : cfg.detection = .simple) (hnb : 1 ≤ cfg.nbsym)
    (hk : cfg.splineKind ≠ .unknown) (n : Nat) (hn : 0 < n) (fuel : Nat) (s : Sift K) (x0 : List K) (seq : List (List K)) (hx : x0.length = n)
    (hi : SiftInv sp cfg (timeArr n) x0 s seq) (err : PyErr) (h : siftLoop sp cfg (timeArr n) fuel s = .error err) : err = .outOfFuel := by
  induction fuel generalizing s seq with
  | zero => simp [siftLoop] at h; exact h.symm
  | succ fuel ih =>
    have hl := hi.path.length
    obtain ⟨r, hr⟩ := siftBody_ok hsp hd hnb hk n hn s (by omega)
    unfold siftLoop at h
    simp only [hr, bind, Except.bind] at h
    cases r with
    | brk s' why => simp [pure, Except.pure] at h
    | cont s' =>
      obtain ⟨-, -, seq', hi'⟩ := siftBody_cont hi hr
      exact ih s' seq' hi' h

theorem emdRound_ok {sp : SciPy K} (hsp : AcceptsAll sp) {cfg : Cfg K} (hd : cfg.detection = .simple) (hnb : 1 ≤ cfg.nbsym)
    (hk : cfg.splineKind ≠ .unknown) (S : List K) (hn : 0 < S.length) (IMF : List (List K)) (hI : ∀ r ∈ IMF, r.length = S.length) (e : Int) :
    ∃ r, emdRound sp cfg (timeArr S.length) S IMF e = .ok r := by
  have h1 := emdRound_noFuel sp cfg (timeArr S.length) S IMF e
  have hl : (vsub S (sumRows S.length IMF)).length = S.length := (isResidue_vsub S IMF hI).1
  cases hr : emdRound sp cfg (timeArr S.length) S IMF e with
  | ok r => exact ⟨r, rfl⟩
  | error err =>
    unfold emdRound at hr
    have := siftLoop_ok hsp hd hnb hk S.length hn _ _ _ _ hl (siftInv_start _ _ _ _ _) err hr
    subst this
    exact absurd (by unfold emdRound; exact hr) h1

theorem endCondition_total (cfg : Cfg K) (S : List K) (hn : 0 < S.length) (IMF : List (List K)) (hI : ∀ r ∈ IMF, r.length = S.length) :
    ∃ b, endCondition cfg S IMF = .ok b := by
  have hl : (vsub S (sumRows S.length IMF)).length = S.length := (isResidue_vsub S IMF hI).1
  have hne : (vsub S (sumRows S.length IMF)).isEmpty = false := by
    rw [List.isEmpty_eq_false_iff]
    exact List.ne_nil_of_length_pos (by omega)
  unfold endCondition npMaxE npMinE
  simp only [hne, bind, Except.bind, Bool.false_eq_true, if_false, pure, Except.pure]
  split
  · exact ⟨_, rfl⟩
  · split <;> exact ⟨_, rfl⟩

theorem emdLoop_ok {sp : SciPy K} (hsp : AcceptsAll sp) {cfg : Cfg K} (hd : cfg.detection = .simple) (hnb : 1 ≤ cfg.nbsym)
    (hk : cfg.splineKind ≠ .unknown) (S : List K) (hn : 0 < S.length) (mi : Int) (fuel : Nat) (rounds : List (Round K))
    (hR : ∀ r ∈ rounds, r.imf.length = S.length) (e : Int) (err : PyErr)
    (h : emdLoop sp cfg (timeArr S.length) S mi fuel rounds e = .error err) : err = .outOfFuel := by
  induction fuel generalizing rounds e with
  | zero => simp [emdLoop] at h; exact h.symm
  | succ fuel ih =>
    have hI : ∀ r ∈ rounds.map (·.imf), r.length = S.length := by
      simp only [List.mem_map]
      rintro _ ⟨r, hr, rfl⟩
      exact hR r hr
    obtain ⟨⟨s, why⟩, hr⟩ := emdRound_ok hsp hd hnb hk S hn (rounds.map (·.imf)) hI e
    obtain ⟨seq, hpost⟩ := emdRound_post hr
    have hls : s.imf.length = S.length := by
      rw [hpost.path.length]; exact (isResidue_vsub S _ hI).1
    have hR' : ∀ r ∈ rounds ++ [{ imf := s.imf, why := why, subs := s.subs, nh := s.nh }], r.imf.length = S.length := by
      intro r hr'
      rcases List.mem_append.1 hr' with h' | h'
      · exact hR r h'
      · simp at h'; subst h'; exact hls
    obtain ⟨b, hb⟩ := endCondition_total cfg S hn ((rounds ++ [({ imf := s.imf, why := why, subs := s.subs, nh := s.nh } : Round K)]).map (fun x : Round K => x.imf)) (by
      simp only [List.mem_map]
      rintro _ ⟨r, hr, rfl⟩
      exact hR' r hr)
    unfold emdLoop at h
    simp only [hr, bind, Except.bind, hb] at h
    split at h
    · simp [pure, Except.pure] at h
    · exact ih _ hR' _ h

/-- C22: with simple detection, `nbsym ≥ 1` and a supported spline kind, no exception leaves `emd` for a signal with at
least two samples, whatever the thresholds and iteration limits: the model ends with a result or, when `fuel` rounds of
the outer loop do not suffice, with `outOfFuel`, which is not a Python exception. -/
theorem C22_no_exception (fuel : Nat) (sp : SciPy K) (hsp : AcceptsAll sp) (cfg : Cfg K) (hd : cfg.detection = .simple)
    (hnb : 1 ≤ cfg.nbsym) (hk : cfg.splineKind ≠ .unknown) (S : List K) (hS : 2 ≤ S.length) (T : Option (List K))
    (hT : ∀ T', T = some T' → T'.length = S.length) (mi : Int) :
    (∃ R, emdPure fuel sp cfg S T mi = .ok R) ∨ emdPure fuel sp cfg S T mi = .error .outOfFuel := by
  unfold emdPure emdRounds
  rw [prepareTime_simple cfg hd S hS T hT]
  simp only [bind, Except.bind]
  cases hl : emdLoop sp cfg ((List.range S.length).map (fun k : Nat => (k : K))) S mi fuel [] (-1) with
  | ok r => exact .inl ⟨_, rfl⟩
  | error err =>
    right
    have := emdLoop_ok hsp hd hnb hk S (by omega) mi fuel [] (by simp) (-1) err hl
    rw [this]

/-- C22, with a limit on the number of components: `emd` returns. -/
theorem C22_returns (fuel : Nat) (sp : SciPy K) (hsp : AcceptsAll sp) (cfg : Cfg K) (hd : cfg.detection = .simple)
    (hnb : 1 ≤ cfg.nbsym) (hk : cfg.splineKind ≠ .unknown) (S : List K) (hS : 2 ≤ S.length) (T : Option (List K))
    (hT : ∀ T', T = some T' → T'.length = S.length) (k : Nat) (hk1 : 1 ≤ k) (hf : k ≤ fuel) :
    ∃ R, emdPure fuel sp cfg S T k = .ok R := by
  rcases C22_no_exception fuel sp hsp cfg hd hnb hk S hS T hT k with h | h
  · exact h
  · exact absurd h (C07_max_imf_terminates fuel sp cfg S T k hk1 hf)

/-- Piecewise linear interpolation meets the assumption. -/
theorem linSciPy_accepts : AcceptsAll (linSciPy : SciPy K) := by
  refine ⟨?_, ?_, ?_, ?_, ?_, ?_, ?_⟩ <;> intro X Y t _ _ _ _ <;> exact ⟨_, rfl, by simp⟩

/-- The hypotheses are satisfiable. -/
example : ∃ R, emdPure 3 linSciPy (Cfg.default : Cfg ℚ) sampleS none (3 : Nat) = .ok R :=
  C22_returns 3 linSciPy linSciPy_accepts Cfg.default rfl (by decide) (by decide) sampleS (by decide) none
    (by simp) 3 (by decide) (by decide)

/-- `nbsym ≥ 1` is needed: with `nbsym = 0` the knots for the minima are not increasing, which scipy refuses. -/
theorem C22_nbsym_zero : okWith (fun k : List (ℚ × ℚ) × List (ℚ × ℚ) => decide ((k.2.map (·.1)).take 5 = [-2, -4, -6, -8, 2]))
    (preparePoints .simple 0 (timeArr 10) sampleS
      { maxPos := [1, 3, 5, 7], maxVal := [3, 2, 5, 4], minPos := [2, 4, 6, 8], minVal := [-1, -2, 1, 0], indzer := [] }) = true := by
  decide +kernel

end EMD
end PyEMD
