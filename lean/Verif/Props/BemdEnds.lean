import Verif.Props.BemdExtrema
import Verif.Props.Image2
import Verif.Props.ImageEnvelope
import Verif.Lemmas.Ceemdan
import Verif.Spec.Surface

/-!
# C149: does `BEMD` end?
-/

set_option linter.unusedSectionVars false

namespace PyEMD
namespace BEMD

open Img Img.Spec Skimage

variable {K : Type} [Field K] [LinearOrder K] [IsStrictOrderedRing K] [FloorRing K]

/-! ## Images given by their pixels -/

theorem eq_ofFn {im : Img K} {R C : Nat} (h : HasShape im R C) : im = Img.ofFn R C im.px := by
  have hl : im.data = (Img.ofFn R C im.px).data := by
    apply List.ext_getElem?
    intro i
    by_cases hi : i < R * C
    · have hC : 0 < C := Nat.pos_of_ne_zero (fun h0 => by subst h0; simp at hi)
      have hr : i / C < R := Nat.div_lt_of_lt_mul (by rwa [Nat.mul_comm])
      have hc : i % C < C := Nat.mod_lt _ hC
      have e1 := at_some im h.wf (i / C) (i % C) (by rw [h.rows_eq]; exact hr) (by rw [h.cols_eq]; exact hc)
      have e2 := ofFn_at R C im.px (i / C) (i % C) hr hc
      have hidx : i / C * C + i % C = i := by rw [Nat.mul_comm]; exact Nat.div_add_mod i C
      unfold at? at e1 e2
      rw [h.cols_eq, hidx] at e1
      rw [show (Img.ofFn R C im.px).cols = C from rfl, hidx] at e2
      rw [e1, e2]
    · rw [List.getElem?_eq_none (by rw [h.length]; omega),
        List.getElem?_eq_none (by rw [(HasShape.ofFn R C im.px).length]; omega)]
  have h1 := h.rows_eq
  have h2 := h.cols_eq
  cases im
  subst h1 h2
  exact congrArg (Img.mk _ _) hl

theorem ofFn_congr {R C : Nat} {f g : Nat → Nat → K} (h : ∀ r < R, ∀ c < C, f r c = g r c) : Img.ofFn R C f = Img.ofFn R C g := by
  unfold Img.ofFn
  congr 1
  apply List.flatMap_congr
  intro r hr
  apply List.map_congr_left
  intro c hc
  exact h r (List.mem_range.1 hr) c (List.mem_range.1 hc)

/-! ## All pixels are extrema -/

/-- The values of the image differ by less than one unit. -/
def LowContrast (im : Img K) : Prop := ∀ x ∈ im.data, ∀ y ∈ im.data, y < x + 1

theorem positions_nodup (e : Ext K) (im : Img K) : (extractMaximaPositions e im).Nodup := by
  unfold extractMaximaPositions
  refine List.Nodup.map (fun p q h => by simpa [Prod.ext_iff, and_comm] using h) (List.Nodup.filter _ ?_)
  rw [List.nodup_flatMap]
  refine ⟨fun r _ => List.Nodup.map (fun a b h => by simpa using h) List.nodup_range, ?_⟩
  refine List.Pairwise.imp ?_ List.nodup_range
  intro a b hab x hx hy
  simp only [List.mem_map] at hx hy
  obtain ⟨_, _, rfl⟩ := hx
  obtain ⟨_, _, h⟩ := hy
  exact hab (by simpa using (congrArg Prod.fst h).symm)

/-- The image mirrored at the main diagonal. -/
def transposed (n : Nat) (im : Img K) : Img K := Img.ofFn n n (fun r c => im.px c r)

theorem envelope_all {rbf : Surface K} (hp : PassesWithin 0 rbf) (ht : ∀ X Y Z, ∃ s, rbf X Y Z = .ok s) {im : Img K} {n : Nat}
    (hs : HasShape im n n) {ps : List (Nat × Nat)} (hnd : ps.Nodup) (hin : ∀ p ∈ ps, p.1 < n ∧ p.2 < n)
    (hall : ∀ i < n, ∀ j < n, (i, j) ∈ ps) :
    splinePoints (ext rbf) ps (ps.map (fun p => im.px p.1 p.2)) im.rows im.cols = .ok (transposed n im) := by
  unfold splinePoints
  obtain ⟨s, hsurf⟩ := ht (ps.map (·.1)) (ps.map (·.2)) (ps.map (fun p => im.px p.1 p.2))
  show ((ext rbf).rbf _ _ _ >>= _) = _
  rw [show (ext rbf).rbf = rbf from rfl, hsurf]
  refine congrArg Except.ok ?_
  rw [hs.rows_eq, hs.cols_eq]
  apply ofFn_congr
  intro j hj i hi
  obtain ⟨k, hk⟩ := List.mem_iff_getElem?.1 (hall i hi j hj)
  have hzip : (ps.map (·.1)).zip (ps.map (·.2)) = ps := by
    rw [List.zip_map']
    simp
  have := hp _ _ _ s (by rw [hzip]; exact hnd) hsurf k i j (im.px i j) (by simp [hk]) (by simp [hk]) (by simp [hk])
  have h0 : s i j - im.px i j = 0 := abs_eq_zero.1 (le_antisymm this (abs_nonneg _))
  linarith

/-- **C149**: in a square image whose contrast is below one unit both envelopes of an interpolator through the points are the image itself,
mirrored at the main diagonal (positions are columns and rows, values are taken at rows and columns). -/
theorem C149_envelopes (rbf : Surface K) (hp : PassesWithin 0 rbf) (ht : ∀ X Y Z, ∃ s, rbf X Y Z = .ok s) (im : Img K) (n : Nat)
    (hs : HasShape im n n) (hlow : LowContrast im) :
    extractMaxMinSpline (ext rbf) im (extractMinimaPositions (ext rbf) im) (extractMaximaPositions (ext rbf) im) =
      .ok (transposed n im, transposed n im) := by
  have inside : ∀ a : Img K, HasShape a n n → ∀ p ∈ extractMaximaPositions (ext rbf) a, p.1 < n ∧ p.2 < n := by
    intro a ha p hpos
    have := mem_maxima hpos
    rw [ha.rows_eq, ha.cols_eq] at this
    exact this.symm
  have hmin := inside _ (hs.map (fun x => -x))
  have hmax := inside _ hs
  have hall := fun i (hi : i < n) j (hj : j < n) => C147_low_contrast rbf im hs.wf hlow j i (by rw [hs.rows_eq]; exact hj) (by rw [hs.cols_eq]; exact hi)
  unfold extractMaxMinSpline
  rw [valuesAt_ok im (extractMinimaPositions (ext rbf) im) (fun p h => by rw [hs.rows_eq, hs.cols_eq]; exact hmin p h),
    valuesAt_ok im (extractMaximaPositions (ext rbf) im) (fun p h => by rw [hs.rows_eq, hs.cols_eq]; exact hmax p h)]
  show (splinePoints (ext rbf) (extractMinimaPositions (ext rbf) im) _ im.rows im.cols >>= fun a =>
    splinePoints (ext rbf) (extractMaximaPositions (ext rbf) im) _ im.rows im.cols >>= fun b => pure (a, b)) = _
  rw [envelope_all (ps := extractMinimaPositions (ext rbf) im) hp ht hs (positions_nodup _ _) hmin (fun i hi j hj => (hall i hi j hj).2),
    envelope_all hp ht hs (positions_nodup _ _) hmax (fun i hi j hj => (hall i hi j hj).1)]
  rfl

theorem two_mem {ps : List (Nat × Nat)} {p q : Nat × Nat} (hp : p ∈ ps) (hq : q ∈ ps) (h : p ≠ q) : 1 < ps.length := by
  match ps, hp, hq with
  | [x], hp, hq =>
    rw [List.mem_singleton] at hp hq
    exact absurd (hp.trans hq.symm) h
  | _ :: _ :: _, _, _ => simp

/-- Symmetric: equal to its mirror image at the main diagonal. -/
def Symmetric (im : Img K) : Prop := ∀ r c, r < im.rows → c < im.cols → im.px r c = im.px c r

theorem transposed_symmetric {im : Img K} {n : Nat} (hs : HasShape im n n) (hsym : Symmetric im) : transposed n im = im := by
  rw [eq_ofFn hs]
  conv_lhs => rw [← eq_ofFn hs]
  exact ofFn_congr (fun r hr c hc => (hsym r c (by rw [hs.rows_eq]; exact hr) (by rw [hs.cols_eq]; exact hc)).symm)

theorem sub_self_zeros {im : Img K} {R C : Nat} (hs : HasShape im R C) : im.sub im = Img.zeros R C := by
  have h1 := hs.rows_eq
  have h2 := hs.cols_eq
  have hl : vsub im.data im.data = vzeros (R * C) := by
    rw [← hs.length]
    generalize im.data = l
    induction l with
    | nil => rfl
    | cons x l ih =>
      simp only [vsub, List.zipWith_cons_cons, vzeros, List.length_cons, List.replicate_succ, sub_self, lit_zero] at ih ⊢
      rw [ih]
  show Img.mk im.rows im.cols _ = Img.mk R C _
  rw [hl, h1, h2]

theorem mean_self (im : Img K) : (im.add im).map (fun x => lit (1 / 2) * x) = im := by
  cases im with
  | mk r c l =>
    simp only [Img.add, Img.map]
    congr 1
    induction l with
    | nil => rfl
    | cons x l ih =>
      simp only [vadd, List.zipWith_cons_cons, List.map_cons] at ih ⊢
      rw [ih]
      congr 1
      simp only [lit_eq]
      push_cast
      ring

theorem zeros_px (n r c : Nat) : (Img.zeros n n : Img K).px r c = 0 := by
  unfold Img.px Img.zeros vzeros
  simp only [lit_zero, List.getD_eq_getElem?_getD, List.getElem?_replicate]
  split <;> rfl

theorem zeros_low (n : Nat) : LowContrast (Img.zeros n n : Img K) := by
  intro x hx y hy
  simp only [Img.zeros, vzeros, List.mem_replicate, lit_zero] at hx hy
  rw [hx.2, hy.2]
  linarith

theorem zeros_symmetric (n : Nat) : Symmetric (Img.zeros n n : Img K) := fun r c _ _ => by rw [zeros_px, zeros_px]

/-- Sifting such an image takes everything away. -/
theorem sift_zero {rbf : Surface K} (hp : PassesWithin 0 rbf) (ht : ∀ X Y Z, ∃ s, rbf X Y Z = .ok s) (cfg : Cfg2 K) {n : Nat} (hn : 2 ≤ n) :
    ∀ (k m mH : Nat) (im : Img K), HasShape im n n → LowContrast im → Symmetric im →
      sift (ext rbf) cfg (k + 1) m mH im = .ok (Img.zeros n n) := by
  have key : ∀ k, (∀ m mH, sift (ext rbf) cfg k m mH (Img.zeros n n) = .ok (Img.zeros n n)) → ∀ m mH (im : Img K), HasShape im n n →
      LowContrast im → Symmetric im → sift (ext rbf) cfg (k + 1) m mH im = .ok (Img.zeros n n) := by
    intro k hz m mH im hs hlow hsym
    have hall := fun i (hi : i < n) j (hj : j < n) =>
      C147_low_contrast rbf im hs.wf hlow j i (by rw [hs.rows_eq]; exact hj) (by rw [hs.cols_eq]; exact hi)
    have h00 := hall 0 (by omega) 0 (by omega)
    have h01 := hall 0 (by omega) 1 (by omega)
    rw [sift]
    dsimp only
    rw [if_pos ⟨two_mem h00.2 h01.2 (by simp), two_mem h00.1 h01.1 (by simp)⟩, C149_envelopes rbf hp ht im n hs hlow,
      transposed_symmetric hs hsym]
    show (if ((im.add im).map (fun x => lit (1 / 2) * x)).rows ≠ im.rows ∨ ((im.add im).map (fun x => lit (1 / 2) * x)).cols ≠ im.cols then _ else _) = _
    rw [if_neg (by simp [Img.add, Img.map])]
    dsimp only
    rw [mean_self, sub_self_zeros hs, hz, hz]
    simp only [hz, ite_self]
  intro k
  induction k with
  | zero => exact key 0 (fun m mH => rfl)
  | succ k ih => exact key (k + 1) (fun m mH => ih m mH _ (HasShape.zeros n n) (zeros_low n) (zeros_symmetric n))

theorem sum_zeros (n j : Nat) : Img.sum n n (List.replicate j (Img.zeros n n : Img K)) = Img.zeros n n := by
  unfold Img.sum Img.zeros
  congr 1
  rw [List.map_replicate]
  unfold sumRows
  induction j with
  | zero => rfl
  | succ j ih =>
    rw [List.replicate_succ, List.foldl_cons]
    have : vadd (vzeros (n * n) : List K) (vzeros (n * n)) = vzeros (n * n) := by
      simp [vadd, vzeros, List.zipWith_replicate, lit_zero]
    rw [this, ih]

theorem sub_zeros {im : Img K} {R C : Nat} (hs : HasShape im R C) : im.sub (Img.zeros R C) = im := by
  have : vsub im.data (vzeros (R * C)) = im.data := by
    rw [← hs.length]
    exact EMD.vsub_vzeros (fun x => by rw [lit_zero, sub_zero]) _
  show Img.mk im.rows im.cols _ = im
  rw [show (Img.zeros R C : Img K).data = vzeros (R * C) from rfl, this]

theorem not_close {im : Img K} {n : Nat} (hs : HasShape im n n) (hbig : ∃ x ∈ im.data, 1 / 100000000 < |x|) :
    ¬ im.allclose (1 / 100000) (Img.zeros n n) = true := by
  intro h
  obtain ⟨x, hx, hxb⟩ := hbig
  unfold Img.allclose at h
  rw [List.all_eq_true] at h
  obtain ⟨i, hi⟩ := List.mem_iff_getElem?.1 hx
  have hlt : i < n * n := by
    rw [← hs.length]
    exact (List.getElem?_eq_some_iff.1 hi).1
  have hmem : (x, (0 : K)) ∈ im.data.zip (Img.zeros n n : Img K).data := by
    refine List.mem_iff_getElem?.2 ⟨i, ?_⟩
    rw [List.getElem?_zip_eq_some]
    refine ⟨hi, ?_⟩
    simp [Img.zeros, vzeros, List.getElem?_replicate, hlt, lit_zero]
  have := h _ hmem
  simp only [decide_eq_true_eq, sub_zero, pyAbs_eq, lit_eq, abs_zero, mul_zero, add_zero] at this
  push_cast at this
  linarith

theorem loop_forever {rbf : Surface K} (hp : PassesWithin 0 rbf) (ht : ∀ X Y Z, ∃ s, rbf X Y Z = .ok s) (cfg : Cfg2 K)
    (hM : 1 ≤ cfg.MAX_ITERATION) {n : Nat} (hn : 2 ≤ n) {im : Img K} (hs : HasShape im n n) (hlow : LowContrast im) (hsym : Symmetric im)
    (hbig : ∃ x ∈ im.data, 1 / 100000000 < |x|) (m : Int) (hm : m ≤ 0) :
    ∀ fuel j, loop (ext rbf) cfg im m fuel (List.replicate j (Img.zeros n n)) = .error .outOfFuel := by
  obtain ⟨k, hk⟩ : ∃ k, cfg.MAX_ITERATION = k + 1 := ⟨cfg.MAX_ITERATION - 1, by omega⟩
  intro fuel
  induction fuel with
  | zero => intro j; rfl
  | succ fuel ih =>
    intro j
    rw [loop]
    dsimp only
    rw [hs.rows_eq, hs.cols_eq, sum_zeros, sub_zeros hs, hk, sift_zero hp ht cfg hn k 0 0 im hs hlow hsym]
    show (if im.allclose (1 / 100000) (Img.sum n n (List.replicate j (Img.zeros n n) ++ [Img.zeros n n])) = true ∨ _ then _ else _) = _
    have hrep : List.replicate j (Img.zeros n n : Img K) ++ [Img.zeros n n] = List.replicate (j + 1) (Img.zeros n n) := by
      rw [List.replicate_succ']
    rw [hrep, sum_zeros, if_neg, ih]
    rintro (h | ⟨h, -⟩)
    · exact not_close hs hbig h
    · omega

/-- **C149**: on every symmetric image of low contrast (less than one unit) that is not zero, `BEMD` without limit on the number of components
does not end, whatever interpolator through the points is used and whatever the other options are: all components are zero. -/
theorem C149_forever (rbf : Surface K) (hp : PassesWithin 0 rbf) (ht : ∀ X Y Z, ∃ s, rbf X Y Z = .ok s) (cfg : Cfg2 K)
    (hM : 1 ≤ cfg.MAX_ITERATION) (n : Nat) (hn : 2 ≤ n) (im : Img K) (hs : HasShape im n n) (hlow : LowContrast im) (hsym : Symmetric im)
    (hbig : ∃ x ∈ im.data, 1 / 100000000 < |x|) (m : Int) (hm : m ≤ 0) (fuel : Nat) :
    bemd (ext rbf) fuel cfg im m = .error .outOfFuel := by
  unfold bemd
  rw [show loop (ext rbf) cfg im m fuel [] = .error .outOfFuel from loop_forever hp ht cfg hM hn hs hlow hsym hbig m hm fuel 0]
  rfl

/-- A symmetric image of low contrast; `EMD2D.spikeSurface` passes through all points. -/
def shade : Img ℚ :=
  { rows := 3, cols := 3, data :=
    [1 / 2, 1 / 4, 0,
     1 / 4, 3 / 4, 1 / 4,
     0, 1 / 4, 1 / 2] }

/-- `C149_forever` applies. -/
example : PassesWithin 0 EMD2D.spikeSurface ∧ (∀ X Y Z, ∃ s, EMD2D.spikeSurface X Y Z = .ok s) ∧ 1 ≤ (Cfg.default (α := ℚ)).MAX_ITERATION ∧
    HasShape shade 3 3 ∧ LowContrast shade ∧ Symmetric shade ∧ ∃ x ∈ shade.data, 1 / 100000000 < |x| := by
  refine ⟨EMD2D.spikeSurface_passes, fun _ _ _ => ⟨_, rfl⟩, by decide, ⟨by unfold WF; decide, rfl, rfl⟩, by unfold LowContrast; decide +kernel, ?_,
    1 / 2, by simp [shade], by norm_num⟩
  have : ∀ r < 3, ∀ c < 3, shade.px r c = shade.px c r := by decide +kernel
  exact fun r c hr hc => this r hr c hc

theorem loop_limited {rbf : Surface K} (hp : PassesWithin 0 rbf) (ht : ∀ X Y Z, ∃ s, rbf X Y Z = .ok s) (cfg : Cfg2 K)
    (hM : 1 ≤ cfg.MAX_ITERATION) {n : Nat} (hn : 2 ≤ n) {im : Img K} (hs : HasShape im n n) (hlow : LowContrast im) (hsym : Symmetric im)
    (hbig : ∃ x ∈ im.data, 1 / 100000000 < |x|) (m : Nat) :
    ∀ fuel j, j + fuel + 1 = m → loop (ext rbf) cfg im m (fuel + 1) (List.replicate j (Img.zeros n n)) = .ok (List.replicate m (Img.zeros n n)) := by
  obtain ⟨k, hk⟩ : ∃ k, cfg.MAX_ITERATION = k + 1 := ⟨cfg.MAX_ITERATION - 1, by omega⟩
  intro fuel
  induction fuel with
  | zero =>
    rintro j rfl
    rw [loop]
    dsimp only
    rw [hs.rows_eq, hs.cols_eq, sum_zeros, sub_zeros hs, hk, sift_zero hp ht cfg hn k 0 0 im hs hlow hsym]
    show (if _ ∨ _ then Except.ok (List.replicate j (Img.zeros n n : Img K) ++ [Img.zeros n n]) else _) = _
    rw [if_pos (Or.inr (by simp)), ← List.replicate_succ']
  | succ fuel ih =>
    intro j hj
    rw [loop]
    dsimp only
    rw [hs.rows_eq, hs.cols_eq, sum_zeros, sub_zeros hs, hk, sift_zero hp ht cfg hn k 0 0 im hs hlow hsym]
    show (if im.allclose (1 / 100000) (Img.sum n n (List.replicate j (Img.zeros n n) ++ [Img.zeros n n])) = true ∨ _ then _ else _) = _
    have hrep : List.replicate j (Img.zeros n n : Img K) ++ [Img.zeros n n] = List.replicate (j + 1) (Img.zeros n n) := by
      rw [List.replicate_succ']
    rw [hrep, sum_zeros, if_neg, ih (j + 1) (by omega)]
    rintro (h | ⟨-, h⟩)
    · exact not_close hs hbig h
    · rw [List.length_replicate] at h
      omega

/-- **C149**: with `max_imf = k` the same images have `k` components that are zero, and the image as the remainder. -/
theorem C149_zeros (rbf : Surface K) (hp : PassesWithin 0 rbf) (ht : ∀ X Y Z, ∃ s, rbf X Y Z = .ok s) (cfg : Cfg2 K)
    (hM : 1 ≤ cfg.MAX_ITERATION) (n : Nat) (hn : 2 ≤ n) (im : Img K) (hs : HasShape im n n) (hlow : LowContrast im) (hsym : Symmetric im)
    (hbig : ∃ x ∈ im.data, 1 / 100000000 < |x|) (k : Nat) (hk : 1 ≤ k) :
    bemd (ext rbf) k cfg im k = .ok (List.replicate k (Img.zeros n n) ++ [im]) := by
  obtain ⟨j, rfl⟩ : ∃ j, k = j + 1 := ⟨k - 1, by omega⟩
  unfold bemd
  rw [show loop (ext rbf) cfg im ((j + 1 : Nat) : Int) (j + 1) [] = .ok (List.replicate (j + 1) (Img.zeros n n)) from
    loop_limited hp ht cfg hM hn hs hlow hsym hbig (j + 1) j 0 (by omega)]
  show Except.ok (if allclose0 (im.sub (Img.sum im.rows im.cols (List.replicate (j + 1) (Img.zeros n n)))).data then _ else
    List.replicate (j + 1) (Img.zeros n n) ++ [im.sub (Img.sum im.rows im.cols (List.replicate (j + 1) (Img.zeros n n)))]) = _
  rw [hs.rows_eq, hs.cols_eq, sum_zeros, sub_zeros hs, if_neg]
  intro h
  obtain ⟨x, hx, hxb⟩ := hbig
  have := List.all_eq_true.1 h x hx
  simp only [decide_eq_true_eq, pyAbs_eq, lit_eq] at this
  push_cast at this
  linarith

/-- **C149, partial.**  An image with fewer than two maxima or fewer than two minima is its own decomposition and the decomposition ends after
one round, for any reconstruction and interpolator.  Missing: other images; for some of them it does not end, see `C149_forever`. -/
theorem C149_returns_partial (e : Ext K) (cfg : Cfg2 K) (im : Img K) (hw : WF im)
    (hfew : (extractMinimaPositions e im).length ≤ 1 ∨ (extractMaximaPositions e im).length ≤ 1) (m : Int) (fuel : Nat) (hf : 1 ≤ fuel) :
    bemd e fuel cfg im m = .ok [im] := by
  have hs : HasShape im im.rows im.cols := ⟨hw, rfl, rfl⟩
  have hsift : sift e cfg cfg.MAX_ITERATION 0 0 im = .ok im := by
    cases cfg.MAX_ITERATION with
    | zero => rfl
    | succ k =>
      rw [sift]
      dsimp only
      rw [if_neg (by omega)]
  have h0 : Img.sum im.rows im.cols ([] : List (Img K)) = Img.zeros im.rows im.cols := rfl
  have h1 : Img.sum im.rows im.cols [im] = im := by
    show Img.mk im.rows im.cols (vadd (vzeros (im.rows * im.cols)) im.data) = im
    rw [show vadd (vzeros (im.rows * im.cols)) im.data = vadd im.data (vzeros (im.rows * im.cols)) from
      List.zipWith_comm_of_comm (fun x y => add_comm x y), CEEMDAN.vadd_vzeros im.data _ hs.length]
  obtain ⟨f, rfl⟩ : ∃ f, fuel = f + 1 := ⟨fuel - 1, by omega⟩
  have hcl : im.allclose (1 / 100000) im = true := by
    unfold Img.allclose
    rw [List.all_eq_true]
    intro p hp
    have : p.1 = p.2 := by
      obtain ⟨i, hi⟩ := List.mem_iff_getElem?.1 hp
      rw [List.getElem?_zip_eq_some] at hi
      exact Option.some.inj (hi.1.symm.trans hi.2)
    simp only [decide_eq_true_eq, this, sub_self, pyAbs_eq, lit_eq, abs_zero]
    push_cast
    positivity
  unfold bemd
  rw [loop]
  dsimp only
  rw [h0, sub_zeros hs, hsift]
  show ((if im.allclose (1 / 100000) (Img.sum im.rows im.cols [im]) = true ∨ _ then _ else _) >>= _) = _
  rw [if_pos (Or.inl (by rw [h1]; exact hcl))]
  show Except.ok (if allclose0 (im.sub (Img.sum im.rows im.cols [im])).data then [im] else _) = _
  rw [h1, sub_self_zeros hs, if_pos]
  rw [allclose0, List.all_eq_true]
  intro x hx
  simp only [Img.zeros, vzeros, List.mem_replicate, lit_zero] at hx
  simp only [hx.2, pyAbs_eq, abs_zero, lit_eq, decide_eq_true_eq]
  push_cast
  positivity

/-- A hill on a plain: one maximum. -/
def hill : Img ℚ :=
  { rows := 2, cols := 3, data :=
    [0, 3, 0,
     0, 1, 0] }

/-- `C149_returns_partial` applies. -/
example : WF hill ∧ (extractMaximaPositions (ext meanSurface) hill).length = 1 ∧ 1 < (extractMinimaPositions (ext meanSurface) hill).length :=
  ⟨by unfold WF; decide, by decide +kernel, by decide +kernel⟩

end BEMD
end PyEMD
