import Verif.Model.MatlabInt
import Verif.Props.Matlab

/-!
# C113: `EMD_matlab` on integer samples
-/

set_option linter.unusedSectionVars false

namespace PyEMD
namespace Matlab
open EMD (SplineKind)
open EMD.Spec (IsResidue colSum)

variable {K : Type} [Field K] [LinearOrder K] [IsStrictOrderedRing K] [FloorRing K]

/-- A multiple of one half. -/
def IsHalf (v : K) : Prop := ∃ k : ℤ, 2 * v = (k : K)

theorem IsHalf.sub {a b : K} (ha : IsHalf a) (hb : IsHalf b) : IsHalf (a - b) := by
  obtain ⟨k, hk⟩ := ha
  obtain ⟨l, hl⟩ := hb
  exact ⟨k - l, by push_cast; rw [← hk, ← hl]; ring⟩

theorem IsHalf.add {a b : K} (ha : IsHalf a) (hb : IsHalf b) : IsHalf (a + b) := by
  obtain ⟨k, hk⟩ := ha
  obtain ⟨l, hl⟩ := hb
  exact ⟨k + l, by push_cast; rw [← hk, ← hl]; ring⟩

theorem isHalf_zero : IsHalf (0 : K) := ⟨0, by simp⟩

/-- An integer. -/
def IsWhole (v : K) : Prop := ∃ k : ℤ, v = (k : K)

theorem cut_whole (x : K) : IsWhole (cut x) := ⟨NpScalar.toInt x, by unfold cut; rw [lit_eq]; simp⟩

theorem bcast_all {P Q R : K → Prop} {f : K → K → K} (hf : ∀ a b, P a → Q b → R (f a b)) {a b c : List K} (ha : ∀ v ∈ a, P v)
    (hb : ∀ v ∈ b, Q v) (h : bcast f a b = .ok c) : ∀ v ∈ c, R v := by
  unfold bcast at h
  split at h
  · cases h
    intro v hv
    rw [← List.map_uncurry_zip_eq_zipWith] at hv
    obtain ⟨⟨x, y⟩, hxy, rfl⟩ := List.mem_map.1 hv
    exact hf x y (ha x (List.of_mem_zip hxy).1) (hb y (List.of_mem_zip hxy).2)
  · split at h
    · cases h
      intro v hv
      obtain ⟨y, hy, rfl⟩ := List.mem_map.1 hv
      exact hf _ _ (ha _ List.mem_cons_self) (hb y hy)
    · cases h
      intro v hv
      obtain ⟨y, hy, rfl⟩ := List.mem_map.1 hv
      exact hf _ _ (ha y hy) (hb _ List.mem_cons_self)
    · cases h

/-- Envelopes of integer samples are whole numbers. -/
theorem spline_whole {sp : SciPy K} {T : List K} {e : List (K × K)} {kind : SplineKind} (hk : kind ≠ .akima) {t q : List K}
    (h : splinePoints cut sp T e kind = .ok (t, q)) : ∀ v ∈ q, IsWhole v := by
  have key : ∀ l : List K, ∀ v ∈ l.map cut, IsWhole v := by
    intro l v hv
    obtain ⟨x, -, rfl⟩ := List.mem_map.1 hv
    exact cut_whole x
  unfold splinePoints at h
  simp only [bind_eq_ok] at h
  obtain ⟨x0, -, xL, -, h⟩ := h
  cases kind with
  | akima => exact absurd rfl hk
  | cubic =>
    simp only [] at h
    split at h
    · simp only [bind_eq_ok, pure_eq_ok] at h
      obtain ⟨v, -, h⟩ := h
      obtain ⟨-, rfl⟩ := Prod.mk.inj h
      exact key v
    · simp only [bind_eq_ok, pure_eq_ok] at h
      obtain ⟨⟨t', v⟩, -, h⟩ := h
      obtain ⟨-, rfl⟩ := Prod.mk.inj h
      exact key v
  | slinear | quadratic | linear =>
    simp only [bind_eq_ok, pure_eq_ok] at h
    obtain ⟨v, -, h⟩ := h
    obtain ⟨-, rfl⟩ := Prod.mk.inj h
    exact key v
  | _ => cases h

theorem extract_whole {sp : SciPy K} {cfg : Cfg K} (hc : cfg.convert = cut) (hk : cfg.splineKind ≠ .akima) {T x up lo : List K}
    (h : extractMaxMinSpline sp cfg T x = .ok (some (up, lo))) : (∀ v ∈ up, IsWhole v) ∧ ∀ v ∈ lo, IsWhole v := by
  unfold extractMaxMinSpline at h
  simp only [bind_eq_ok] at h
  obtain ⟨e, -, h⟩ := h
  split at h
  · cases h
  · simp only [bind_eq_ok, pure_eq_ok] at h
    obtain ⟨⟨k1, k2⟩, -, ⟨t1, q1⟩, h1, ⟨t2, q2⟩, h2, h⟩ := h
    rw [hc] at h1 h2
    obtain ⟨rfl, rfl⟩ := Prod.mk.inj (Option.some.inj h)
    exact ⟨spline_whole hk h1, spline_whole hk h2⟩

theorem mean_half {sp : SciPy K} {cfg : Cfg K} (hc : cfg.convert = cut) (hk : cfg.splineKind ≠ .akima) {T x m : List K}
    (h : IsMean sp cfg T x m) : ∀ v ∈ m, IsHalf v := by
  obtain ⟨up, lo, sum, h1, h2, rfl⟩ := h
  obtain ⟨w1, w2⟩ := extract_whole hc hk h1
  have := bcast_all (P := IsWhole) (Q := IsWhole) (R := IsWhole) (f := fun a b => a + b) (by
    rintro _ _ ⟨k, rfl⟩ ⟨l, rfl⟩
    exact ⟨k + l, by push_cast; rfl⟩) w1 w2 h2
  intro v hv
  obtain ⟨x, hx, rfl⟩ := List.mem_map.1 hv
  obtain ⟨k, rfl⟩ := this x hx
  exact ⟨k, by ring⟩

theorem sifted_half {sp : SciPy K} {cfg : Cfg K} (hc : cfg.convert = cut) (hk : cfg.splineKind ≠ .akima) (hr : cfg.reduceScale = 1)
    {T x y : List K} {n : Nat} (hx : ∀ v ∈ x, IsHalf v) (h : Sifted sp cfg T x n y) : ∀ v ∈ y, IsHalf v := by
  induction h with
  | zero => exact hx
  | succ n y m z h1 h2 h3 ih =>
    refine bcast_all (P := IsHalf) (Q := IsHalf) (fun _ _ ha hb => ha.sub hb) ih ?_ h3
    intro v hv
    obtain ⟨w, hw, rfl⟩ := List.mem_map.1 hv
    rw [hr, one_mul]
    exact mean_half hc hk h2 w hw

theorem post_half {sp : SciPy K} {cfg : Cfg K} (hc : cfg.convert = cut) (hk : cfg.splineKind ≠ .akima) (hr : cfg.reduceScale = 1)
    {T x : List K} {s : Sift K} {why : SiftEnd} (hx : ∀ v ∈ x, IsHalf v) (h : SiftPost sp cfg T x s why) : ∀ v ∈ s.imf, IsHalf v := by
  by_cases hm : 1 ≤ cfg.MAX_ITERATION
  · by_cases ht : why = .trend
    · rw [(h.trend ht).2.1]; exact hx
    · exact sifted_half hc hk hr hx (h.other ht hm).2.2.2
  · rw [(h.none (by omega)).2.2]; exact hx

theorem colSum_half {rows : List (List K)} (h : ∀ r ∈ rows, ∀ v ∈ r, IsHalf v) (i : Nat) : IsHalf (colSum rows i) := by
  rw [colSum_eq]
  induction rows with
  | nil => exact isHalf_zero
  | cons r rows ih =>
    rw [List.map_cons, List.sum_cons]
    refine IsHalf.add ?_ (ih (fun r hr => h r (List.mem_cons_of_mem _ hr)))
    rw [List.getD_eq_getElem?_getD]
    cases hi : r[i]? with
    | none => exact isHalf_zero
    | some v => exact h r List.mem_cons_self v (List.mem_of_getElem? hi)

theorem residue_half {S r : List K} {rows : List (List K)} (hS : ∀ v ∈ S, IsHalf v) (hr : ∀ r ∈ rows, ∀ v ∈ r, IsHalf v)
    (h : IsResidue S rows r) : ∀ v ∈ r, IsHalf v := by
  intro v hv
  obtain ⟨i, hi⟩ := List.mem_iff_getElem?.1 hv
  have hl : i < S.length := by
    rw [← h.1]
    exact (List.getElem?_eq_some_iff.1 hi).1
  obtain ⟨s, hs, hx⟩ := h.2 i hl
  rw [hi] at hx
  rw [Option.some.inj hx]
  exact (hS s (List.mem_of_getElem? hs)).sub (colSum_half hr i)

/-- C113, what integer samples do to `EMD_matlab`: whatever the interpolation (except Akima), all values of all components are
multiples of one half - the envelopes are cut to integers in every sifting. -/
theorem C113_half_integers {sp : SciPy K} {cfg : Cfg K} {S : List K} {mi : Int} {fuel : Nat} {R : Result K}
    (hk : cfg.splineKind ≠ .akima) (hr : cfg.reduceScale = 1) (hS : ∀ v ∈ S, ∃ k : ℤ, v = (k : K))
    (h : emdInt fuel sp cfg S mi = .ok R) : ∀ row ∈ R.IMF.map (·.2), ∀ v ∈ row, ∃ k : ℤ, 2 * v = (k : K) := by
  obtain ⟨recs, r, res, more, hE⟩ := emd_ok h
  have hS' : ∀ v ∈ S, IsHalf v := by
    intro v hv
    obtain ⟨k, rfl⟩ := hS v hv
    exact ⟨2 * k, by push_cast; ring⟩
  have hrecs : ∀ (i : Nat) (q : Rec K), (recs ++ [r])[i]? = some q → ∀ v ∈ q.s.imf, IsHalf v := by
    intro i
    induction i using Nat.strong_induction_on with
    | _ i ih =>
      intro q hq
      refine post_half (cfg := { cfg with convert := cut }) rfl hk hr (residue_half hS' ?_ (hE.recsOk.start i q hq)) (hE.recsOk.post q (List.mem_of_getElem? hq))
      intro row hrow
      obtain ⟨q', hq', rfl⟩ := List.mem_map.1 hrow
      obtain ⟨j, hj⟩ := List.mem_iff_getElem?.1 hq'
      rw [List.getElem?_take] at hj
      split at hj
      · next hji => exact ih j hji q' hj
      · cases hj
  have hall : ∀ row ∈ (recs ++ [r]).map (·.s.imf), ∀ v ∈ row, IsHalf v := by
    intro row hrow
    obtain ⟨q, hq, rfl⟩ := List.mem_map.1 hrow
    obtain ⟨j, hj⟩ := List.mem_iff_getElem?.1 hq
    exact hrecs j q hj
  intro row hrow
  rw [hE.rows] at hrow
  rcases List.mem_append.1 hrow with hrow | hrow
  · exact hall row hrow
  · cases more with
    | false => cases hrow
    | true =>
      simp only [if_true, List.mem_singleton] at hrow
      subst hrow
      exact residue_half hS' hall hE.isRes

/-- Whole numbers as samples. -/
example : (∀ v ∈ EMD.sampleS, ∃ k : ℤ, v = (k : ℚ)) ∧ sampleCfg.splineKind ≠ .akima ∧ sampleCfg.reduceScale = 1 ∧
    okWith (fun R => (R.IMF.map (·.2)).any (fun r => r.any (fun v => v.den != 1))) (emdInt 20 linSciPy sampleCfg EMD.sampleS (-1)) = true := by
  refine ⟨?_, by decide, by decide +kernel, by decide +kernel⟩
  simp only [EMD.sampleS, List.mem_cons, List.not_mem_nil, or_false, forall_eq_or_imp, forall_eq]
  refine ⟨⟨0, ?_⟩, ⟨3, ?_⟩, ⟨-1, ?_⟩, ⟨2, ?_⟩, ⟨-2, ?_⟩, ⟨5, ?_⟩, ⟨1, ?_⟩, ⟨4, ?_⟩, ⟨0, ?_⟩, ⟨1, ?_⟩⟩ <;> norm_num

/-- C113, the part that holds: the components of integer samples add up to the signal, exactly if a residue was appended and up to
`1e-10` in total otherwise.  Missing: that they are the components of the same numbers given as floats. -/
theorem C113_adds_up_partial {sp : SciPy K} {cfg : Cfg K} {S : List K} {mi : Int} {fuel : Nat} {R : Result K}
    (h : emdInt fuel sp cfg S mi = .ok R) :
    (∀ r ∈ R.IMF.map (·.2), r.length = S.length) ∧
    ((R.imfNo = R.ends.length + 1 ∧ ∀ i s, S[i]? = some s → colSum (R.IMF.map (·.2)) i = s) ∨
      (R.imfNo = R.ends.length ∧ l1Diff S (R.IMF.map (·.2)) ≤ 1 / 10000000000)) :=
  (C54_sum h).2.2.2

example : okWith (fun R => R.imfNo == 3 && R.ends.length == 3) (emdInt 20 linSciPy sampleCfg EMD.sampleS (-1)) = true := by
  decide +kernel

/-- C113 fails: the same ten whole numbers give other components as integers than as floats - with linear envelopes, by as
much as a third of the amplitude. -/
theorem C113_counterexample : ∃ R R' : Result ℚ, emdInt 20 linSciPy sampleCfg EMD.sampleS (-1) = .ok R ∧
    emd 20 linSciPy sampleCfg EMD.sampleS none (-1) = .ok R' ∧ R.imfNo = R'.imfNo ∧
    ∃ (a b : List ℚ) (v w : ℚ), (R.IMF.map (·.2))[0]? = some a ∧ (R'.IMF.map (·.2))[0]? = some b ∧ a[4]? = some v ∧ b[4]? = some w ∧ v = -3 / 2 ∧ w = -19 / 8 := by
  have h : okWith (fun R => okWith (fun R' => R.imfNo == R'.imfNo && ((R.IMF.map (·.2))[0]?.bind (fun a : List ℚ => a[4]?) == some (-3 / 2 : ℚ)) &&
      ((R'.IMF.map (·.2))[0]?.bind (fun b : List ℚ => b[4]?) == some (-19 / 8 : ℚ)))
      (emd 20 linSciPy sampleCfg EMD.sampleS none (-1))) (emdInt 20 linSciPy sampleCfg EMD.sampleS (-1)) = true := by decide +kernel
  obtain ⟨R, hR, h⟩ := okWith_iff.1 h
  obtain ⟨R', hR', h⟩ := okWith_iff.1 h
  simp only [Bool.and_eq_true, beq_iff_eq] at h
  obtain ⟨⟨h1, h2⟩, h3⟩ := h
  obtain ⟨a, ha, h2⟩ := Option.bind_eq_some_iff.1 h2
  obtain ⟨b, hb, h3⟩ := Option.bind_eq_some_iff.1 h3
  exact ⟨R, R', hR, hR', h1, a, b, _, _, ha, hb, h2, h3, rfl, rfl⟩

/-! ## Unsigned samples -/

/-- Stamp 0 mirrored at stamp 0 stays; any other stamp wraps around to a later one. -/
theorem wraps (x : UInt8) (hx : x ≠ 0) : (0 : UInt8) < lit 2 * 0 - x := by
  rw [UInt8.lt_iff_toNat_lt, UInt8.toNat_sub, UInt8.mul_zero]
  have h1 : x.toNat < 256 := UInt8.toNat_lt x
  have h2 : x.toNat ≠ 0 := fun h => hx (UInt8.toNat_inj.1 (by simpa using h))
  simp only [UInt8.toNat_zero, add_zero]
  omega

/-- C113, unsigned samples: in front of the very first extremum the knots are mirrored at stamp 0 whenever the signal does not
start beyond it; as bytes all mirror images of later stamps wrap around, and the consistency check raises `Exception`. -/
theorem C113_unsigned (n : Nat) (hn : n ≤ 256) (nbsym : Int) (ind_max ind_min : List Int) (m : EMD.Mirror) (hsym : m.sym = 0)
    (hne : ind_max ≠ []) (i j : Int) (mx mn : List Int) (hmx : m.mx = i :: mx) (hmn : m.mn = j :: mn) (hi : 0 < i)
    (rx : ∀ k ∈ m.mx, 0 ≤ k ∧ k < n) (rn : ∀ k ∈ m.mn, 0 ≤ k ∧ k < n) :
    EMD.leftMirror nbsym (byteTimes n) ind_max ind_min m = .error (.exception "Left edge BUG") := by
  have hl : (byteTimes n).length = n := by simp [byteTimes]
  have hn0 : 0 < n := by have := (rx i (by rw [hmx]; exact List.mem_cons_self)); omega
  have hget : ∀ k : Int, 0 ≤ k → k < n → (byteTimes n).getD k.toNat 0 = UInt8.ofNat k.toNat := by
    intro k h0 h1
    rw [List.getD_eq_getElem?_getD]
    simp only [byteTimes, List.getElem?_map]
    rw [List.getElem?_range (by omega)]
    rfl
  obtain ⟨M, hM⟩ : ∃ M Ms, ind_max = M :: Ms := by
    cases ind_max with
    | nil => exact absurd rfl hne
    | cons M Ms => exact ⟨M, Ms, rfl⟩
  obtain ⟨Ms, rfl⟩ := hM
  have g0 : pyGet (byteTimes n) 0 = .ok 0 := by
    have := pyGet_zero (byteTimes n) (by omega)
    rw [this]
    simp [byteTimes]
  have mir : ∀ idx : List Int, (∀ k ∈ idx, 0 ≤ k ∧ k < n) →
      EMD.mirrorTimes (byteTimes n) 0 idx = .ok (idx.map (fun k => lit 2 * 0 - (byteTimes n).getD k.toNat 0)) := by
    intro idx h
    unfold EMD.mirrorTimes
    rw [g0, pyTake_int (byteTimes n) idx 0 (by rw [hl]; exact h)]
    simp only [bind, Except.bind, pure, Except.pure, List.map_map, Function.comp_def]
  unfold EMD.leftMirror
  rw [hsym, mir _ rx, mir _ rn, g0]
  rw [hmx, hmn]
  simp only [bind, Except.bind, List.map_cons, pyGet_cons]
  have hi' := rx i (by rw [hmx]; exact List.mem_cons_self)
  have hw := wraps ((byteTimes n).getD i.toNat 0) (by
    rw [hget i hi'.1 hi'.2]
    intro h
    have := congrArg UInt8.toNat h
    simp only [UInt8.toNat_ofNat', UInt8.toNat_zero] at this
    omega)
  rw [if_pos (.inr hw), if_pos (by split <;> rfl)]

/-- The mirrored extrema of a signal that begins with a low value. -/
example : okWith (fun m => m.sym == 0 && m.mx == [3, 1] && m.mn == [2, 0])
    (EMD.leftBound (α := UInt8) 2 [1, 9, 3, 8, 2, 9, 1, 7, 3] [1, 3, 5, 7] [2, 4, 6]) = true := by decide +kernel

/-- Nine bytes that begin with a low value, next to the same numbers with floating stamps. -/
example : preparePoints (α := UInt8) id 2 [1, 9, 3, 8, 2, 9, 1, 7, 3] (byteTimes 9) [1, 3, 5, 7] [2, 4, 6] = .error (.exception "bug") ∧
    okWith (fun k => k.1.length == 8 && k.2.length == 7)
      (preparePoints (α := ℚ) id 2 [1, 9, 3, 8, 2, 9, 1, 7, 3] [0, 1, 2, 3, 4, 5, 6, 7, 8] [1, 3, 5, 7] [2, 4, 6]) = true := by
  constructor
  · exact errIs_iff.1 (by decide +kernel)
  · decide +kernel

end Matlab
end PyEMD
