import Verif.Props.Image
import Verif.Spec.ImageSamples

/-!
# C49, C61 – C64: limits and sifting of images
-/

set_option linter.unusedSectionVars false

namespace PyEMD

open Img Img.Spec

section Gen
variable {α : Type} [Add α] [Sub α] [Mul α] [Div α] [Neg α] [LT α] [LE α] [BEq α]
  [DecidableLT α] [DecidableLE α] [NpScalar α]

namespace EMD2D

/-- **C49** (EMD2D) With `max_imf = k ≥ 1` the decomposition terminates (`k` rounds of the outer loop are enough) and returns at
most `k` components and a residue. -/
theorem C49_max_imf (sbs : Surface α) (hs : ∀ X Y Z, NoFuel (sbs X Y Z)) (cfg : Cfg2 α) (image : Img α) (hw : WF image) (k : Nat)
    (hk : 1 ≤ k) (fuel : Nat) (hf : k ≤ fuel) :
    NoFuel (emd sbs fuel cfg image k) ∧ ∀ out, emd sbs fuel cfg image k = .ok out → 1 ≤ out.length ∧ out.length ≤ k + 1 := by
  have hI : HasShape image image.rows image.cols := ⟨hw, rfl, rfl⟩
  constructor
  · unfold emd npMinE npMaxE
    have h := fun im => loop_noFuel hs cfg image im (k : Int) (by omega) fuel [] (by simp; omega) (by omega)
    nofuel
    exact h _
  · intro out h
    unfold emd at h
    obtain ⟨mn, -, h⟩ := bind_eq_ok.1 h
    obtain ⟨mx, -, h⟩ := bind_eq_ok.1 h
    simp only at h
    split at h
    · cases h
    · obtain ⟨comps, hl, h⟩ := bind_eq_ok.1 h
      rw [pure_eq_ok] at h
      obtain ⟨-, h1, h2⟩ := loop_ok hI (hI.map _) hl (by simp)
      have h3 := h2 (by omega)
      rw [← h, length_addLast, List.length_map]
      simp only [List.length_nil] at h1 h3
      split
      · omega
      · simp only [List.length_append, List.length_singleton]; omega

example : okWith (fun out => decide (out.length = 3)) (emd flatSurface 2 Cfg.default board 2) = true := by decide +kernel

/-- The mean of the envelopes of `h`. -/
def Spec.EnvelopeMean (sbs : Surface α) (h m : Img α) : Prop :=
  ∃ lower upper, extractMaxMinSpline sbs h = .ok (lower, upper) ∧ m = (lower.add upper).map (fun x => lit (1 / 2) * x)

/-- One sifting iteration as documented: subtract the mean of the envelopes. -/
def Spec.SubtractsMean (sbs : Surface α) (h h' : Img α) : Prop := ∃ m, EnvelopeMean sbs h m ∧ h' = h.sub m

open EMD2D.Spec

/-- What one pass through the body of the inner loop computes. -/
theorem sift_body {sbs : Surface α} {cfg : Cfg2 α} {k n nH : Nat} {h m : Img α} {x : Img α × Bool}
    (hx : sift sbs cfg (k + 1) n nH h m = .ok x) :
    x = (h, false) ∨ ∃ m', EnvelopeMean sbs (h.sub m) m' ∧
      (x = ((h.sub m).sub m', true) ∨ ∃ nH', sift sbs cfg k (n + 1) nH' ((h.sub m).sub m') m' = .ok x) := by
  simp only [sift] at hx
  obtain ⟨e, -, hx⟩ := bind_eq_ok.1 hx
  split at hx
  · obtain ⟨env, henv, hx⟩ := bind_eq_ok.1 hx
    right
    refine ⟨_, ⟨env.1, env.2, henv, rfl⟩, ?_⟩
    split at hx
    · split at hx
      · cases hx; exact .inl rfl
      · exact .inr ⟨_, hx⟩
    · split at hx
      · split at hx
        · exact .inr ⟨_, hx⟩
        · split at hx <;> split at hx <;> first | (cases hx; exact .inl rfl) | exact .inr ⟨_, hx⟩
      · split at hx
        · cases hx; exact .inl rfl
        · exact .inr ⟨_, hx⟩
  · cases hx; exact .inl rfl

end EMD2D

namespace BEMD

/-- **C49** (BEMD) With `max_imf = k ≥ 1` the decomposition terminates (`k` rounds of the outer loop are enough) and returns at
most `k` components and a residue. -/
theorem C49_max_imf (ext : Ext α) (hs : ∀ X Y Z, NoFuel (ext.rbf X Y Z)) (cfg : Cfg2 α) (image : Img α) (hw : WF image) (k : Nat)
    (hk : 1 ≤ k) (fuel : Nat) (hf : k ≤ fuel) :
    NoFuel (bemd ext fuel cfg image k) ∧ ∀ out, bemd ext fuel cfg image k = .ok out → 1 ≤ out.length ∧ out.length ≤ k + 1 := by
  have hI : HasShape image image.rows image.cols := ⟨hw, rfl, rfl⟩
  constructor
  · unfold bemd
    have h := loop_noFuel hs cfg image (k : Int) (by omega) fuel [] (by simp; omega) (by omega)
    nofuel
  · intro out h
    unfold bemd at h
    obtain ⟨comps, hl, h⟩ := bind_eq_ok.1 h
    rw [pure_eq_ok] at h
    obtain ⟨-, h1, h2⟩ := loop_ok hI hl (by simp)
    have h3 := h2 (by omega)
    rw [← h]
    simp only [List.length_nil] at h1 h3
    split
    · omega
    · simp only [List.length_append, List.length_singleton]; omega

example : okWith (fun out => decide (out.length = 3)) (bemd sampleExt 2 Cfg.default hills 2) = true := by decide +kernel

/-- One sifting iteration of BEMD: subtract the mean of the envelopes through the extrema. -/
def Spec.SubtractsMean (ext : Ext α) (h h' : Img α) : Prop :=
  ∃ lower upper, extractMaxMinSpline ext h (extractMinimaPositions ext h) (extractMaximaPositions ext h) = .ok (lower, upper) ∧
    h' = h.sub ((lower.add upper).map (fun x => lit (1 / 2) * x))

/-- `n` sifting iterations lead from `h` to `x`. -/
inductive Spec.Iterations (ext : Ext α) : Nat → Img α → Img α → Prop
  | none (h : Img α) : Iterations ext 0 h h
  | more {n : Nat} {h h' x : Img α} : SubtractsMean ext h h' → Iterations ext n h' x → Iterations ext (n + 1) h x

/-- Fewer than two minima or fewer than two maxima. -/
def Spec.FewExtrema (ext : Ext α) (h : Img α) : Prop :=
  (extractMinimaPositions ext h).length ≤ 1 ∨ (extractMaximaPositions ext h).length ≤ 1

open BEMD.Spec

theorem sift_fixe {ext : Ext α} {cfg : Cfg2 α} (hF : cfg.FIXE ≠ 0) : ∀ {k n nH : Nat} {h x : Img α},
    sift ext cfg k n nH h = .ok x → n < cfg.FIXE + 1 → cfg.FIXE + 1 ≤ n + k →
    ∃ m, Iterations ext m h x ∧ (n + m = cfg.FIXE + 1 ∨ n + m ≤ cfg.FIXE ∧ FewExtrema ext x) := by
  intro k
  induction k with
  | zero =>
    intro n nH h x _ hn hn'
    omega
  | succ k ih =>
    intro n nH h x hx hn hn'
    simp only [sift] at hx
    split at hx
    · obtain ⟨env, henv, hx⟩ := bind_eq_ok.1 hx
      split at hx
      · cases hx
      · have hs : SubtractsMean ext h (h.sub ((env.1.add env.2).map (fun x => lit (1 / 2) * x))) := ⟨env.1, env.2, henv, rfl⟩
        split at hx
        · cases hx
          exact ⟨1, .more hs (.none _), .inl (by omega)⟩
        · rename_i h1
          obtain ⟨m, h2, h3⟩ := ih hx (by omega) (by omega)
          refine ⟨m + 1, .more hs h2, ?_⟩
          rcases h3 with h3 | ⟨h3, h4⟩
          · exact .inl (by omega)
          · exact .inr ⟨by omega, h4⟩
    · rename_i h0
      cases hx
      exact ⟨0, .none _, .inr ⟨by omega, by unfold FewExtrema; omega⟩⟩

/-- **C62** (part) With `FIXE = k`, `1 ≤ k < MAX_ITERATION`, a component of BEMD is the result of exactly `k + 1` sifting
iterations of the residue, unless it runs out of extrema before.  The claim says `k` (`C62_counterexample`). -/
theorem C62_iterations_partial (ext : Ext α) (cfg : Cfg2 α) (hF : 1 ≤ cfg.FIXE) (hM : cfg.FIXE < cfg.MAX_ITERATION) (res x : Img α)
    (h : sift ext cfg cfg.MAX_ITERATION 0 0 res = .ok x) :
    ∃ m, Iterations ext m res x ∧ (m = cfg.FIXE + 1 ∨ m ≤ cfg.FIXE ∧ FewExtrema ext x) := by
  obtain ⟨m, h1, h2⟩ := sift_fixe (by omega) h (by omega) (by omega)
  exact ⟨m, h1, by simpa using h2⟩

example : okWith (fun _ => true) (sift sampleExt (Cfg.default (α := ℚ)) 5 0 0 hills) = true := by decide +kernel

theorem mem_maxima {ext : Ext α} {im : Img α} {p : Nat × Nat} (h : p ∈ extractMaximaPositions ext im) :
    p.2 < im.rows ∧ p.1 < im.cols := by
  unfold extractMaximaPositions at h
  simp only [List.mem_map, List.mem_filter, List.mem_flatMap, List.mem_range] at h
  obtain ⟨q, ⟨⟨r, hr, c, hc, rfl⟩, -⟩, rfl⟩ := h
  exact ⟨hr, hc⟩

theorem mem_minima {ext : Ext α} {im : Img α} {p : Nat × Nat} (h : p ∈ extractMinimaPositions ext im) :
    p.2 < im.rows ∧ p.1 < im.cols := mem_maxima (im := im.map _) h

theorem valuesAt_ok (im : Img α) (ps : List (Nat × Nat)) (h : ∀ p ∈ ps, p.1 < im.rows ∧ p.2 < im.cols) :
    valuesAt im ps = .ok (ps.map (fun p => im.px p.1 p.2)) := by
  induction ps with
  | nil => rfl
  | cons p ps ih =>
    have := h p (by simp)
    rw [valuesAt, if_neg (by omega), ih (fun q hq => h q (List.mem_cons_of_mem _ hq))]
    rfl

theorem extract_total {ext : Ext α} (hs : ∀ X Y Z, ∃ s, ext.rbf X Y Z = .ok s) (im : Img α) (hsq : im.rows = im.cols) :
    ∃ e, extractMaxMinSpline ext im (extractMinimaPositions ext im) (extractMaximaPositions ext im) = .ok e := by
  unfold extractMaxMinSpline splinePoints
  rw [valuesAt_ok im _ (fun p hp => by have := mem_minima hp; omega), valuesAt_ok im _ (fun p hp => by have := mem_maxima hp; omega)]
  obtain ⟨s1, h1⟩ := hs ((extractMinimaPositions ext im).map (·.1)) ((extractMinimaPositions ext im).map (·.2))
    ((extractMinimaPositions ext im).map (fun p => im.px p.1 p.2))
  obtain ⟨s2, h2⟩ := hs ((extractMaximaPositions ext im).map (·.1)) ((extractMaximaPositions ext im).map (·.2))
    ((extractMaximaPositions ext im).map (fun p => im.px p.1 p.2))
  simp only [bind, Except.bind, pure, Except.pure, h1, h2]
  exact ⟨_, rfl⟩

theorem sift_total {ext : Ext α} (hs : ∀ X Y Z, ∃ s, ext.rbf X Y Z = .ok s) (cfg : Cfg2 α) (R : Nat) : ∀ (k n nH : Nat) (h : Img α),
    HasShape h R R → ∃ x, sift ext cfg k n nH h = .ok x := by
  intro k
  induction k with
  | zero => intro n nH h _; exact ⟨h, rfl⟩
  | succ k ih =>
    intro n nH h hh
    obtain ⟨e, he⟩ := extract_total hs h (hh.rows_eq.trans hh.cols_eq.symm)
    obtain ⟨h1, h2⟩ := extract_shape he
    rw [hh.rows_eq, hh.cols_eq] at h1 h2
    have h3 := (h1.add h2).map (fun x => lit (1 / 2) * x)
    have h4 := hh.sub h3
    simp only [sift, he, bind, Except.bind]
    split
    · rw [if_neg (by rw [h3.rows_eq, h3.cols_eq, hh.rows_eq, hh.cols_eq]; simp)]
      split
      · split
        · exact ⟨_, rfl⟩
        · exact ih _ _ _ h4
      · split
        · split
          · exact ih _ _ _ h4
          · split <;> split <;> first | exact ⟨_, rfl⟩ | exact ih _ _ _ h4
        · split
          · exact ⟨_, rfl⟩
          · exact ih _ _ _ h4
    · exact ⟨_, rfl⟩

theorem loop_total {ext : Ext α} (hs : ∀ X Y Z, ∃ s, ext.rbf X Y Z = .ok s) (cfg : Cfg2 α) (image : Img α) (R : Nat)
    (hi : HasShape image R R) (maxImf : Int) (hm : 0 < maxImf) : ∀ (fuel : Nat) (imfs : List (Img α)),
    (∀ im ∈ imfs, HasShape im R R) → maxImf ≤ imfs.length + fuel → 0 < fuel → ∃ out, loop ext cfg image maxImf fuel imfs = .ok out := by
  intro fuel
  induction fuel with
  | zero => intro _ _ _ h0; omega
  | succ fuel ih =>
    intro imfs hall hf _
    have hsum := HasShape.sum R R imfs hall
    obtain ⟨x, hx⟩ := sift_total hs cfg R cfg.MAX_ITERATION 0 0 _ (hi.sub hsum)
    have hxs := sift_shape hx (hi.sub hsum)
    simp only [loop, bind, Except.bind]
    rw [hi.rows_eq, hi.cols_eq, hx]
    simp only
    split
    · exact ⟨_, rfl⟩
    · rename_i hc
      have hlen : (imfs ++ [x]).length = imfs.length + 1 := by simp
      have : ¬ (maxImf ≤ ((imfs ++ [x]).length : Int)) := fun h' => hc (.inr ⟨hm, h'⟩)
      refine ih _ ?_ (by omega) (by omega)
      intro im him
      rcases List.mem_append.1 him with h1 | h1
      · exact hall im h1
      · rw [List.mem_singleton.1 h1]; exact hxs

/-- **C64** (part) Square images are decomposed without an exception. -/
theorem C64_square_partial (ext : Ext α) (hs : ∀ X Y Z, ∃ s, ext.rbf X Y Z = .ok s) (cfg : Cfg2 α) (image : Img α) (hw : WF image)
    (hsq : image.rows = image.cols) (k : Nat) (hk : 1 ≤ k) (fuel : Nat) (hf : k ≤ fuel) :
    ∃ out, bemd ext fuel cfg image k = .ok out := by
  obtain ⟨out, h⟩ := loop_total hs cfg image image.cols ⟨hw, hsq, rfl⟩ k (by omega) fuel [] (by simp) (by simp; omega) (by omega)
  unfold bemd
  rw [h]
  exact ⟨_, rfl⟩

example : ∀ X Y Z, ∃ s, sampleExt.rbf X Y Z = .ok s := fun _ _ _ => ⟨_, rfl⟩

/-- **C64** does not hold for other shapes: an image that is not square and has at least two maxima and two minima always makes
BEMD raise. -/
theorem C64_rectangular (ext : Ext α) (cfg : Cfg2 α) (image : Img α) (hw : WF image) (hne : image.rows ≠ image.cols)
    (hM : 1 ≤ cfg.MAX_ITERATION) (res : Img α) (hres : HasShape res image.rows image.cols)
    (hmin : 2 ≤ (extractMinimaPositions ext res).length) (hmax : 2 ≤ (extractMaximaPositions ext res).length) :
    ∃ e, sift ext cfg cfg.MAX_ITERATION 0 0 res = .error e := by
  cases h : sift ext cfg cfg.MAX_ITERATION 0 0 res with
  | error e => exact ⟨e, rfl⟩
  | ok x =>
    exfalso
    obtain ⟨k, hk⟩ : ∃ k, cfg.MAX_ITERATION = k + 1 := ⟨cfg.MAX_ITERATION - 1, by omega⟩
    rw [hk] at h
    simp only [sift] at h
    rw [if_pos ⟨by omega, by omega⟩] at h
    obtain ⟨env, henv, h⟩ := bind_eq_ok.1 h
    obtain ⟨h1, h2⟩ := extract_shape henv
    have h3 := (h1.add h2).map (fun x => lit (1 / 2) * x)
    rw [if_pos (by rw [h3.rows_eq, h3.cols_eq, hres.rows_eq, hres.cols_eq]; left; exact Ne.symm hne)] at h
    cases h

/-- A 2 × 5 image with two peaks. -/
def oblong : Img ℚ := { rows := 2, cols := 5, data := [0, 3, 0, 4, 0, 0, 0, 0, 0, 0] }

/-- **C64** does not hold: a rectangular image, no exception in the interpolator. -/
theorem C64_counterexample : ∃ (ext : Ext ℚ) (image : Img ℚ), WF image ∧ (∀ X Y Z, ∃ s, ext.rbf X Y Z = .ok s) ∧
    bemd ext 1 Cfg.default image 1 = .error .indexError :=
  ⟨sampleExt, oblong, by unfold WF; decide, fun _ _ _ => ⟨_, rfl⟩, errIs_iff.1 (by decide +kernel)⟩

/-- **C63** (part) For a symmetric image the interpolator gets the values at the maxima found: position `(x, y)` means column `x`
and row `y`.  Missing: other images (`C63_counterexample`). -/
theorem C63_values_partial (ext : Ext α) (image : Img α) (hsq : image.rows = image.cols)
    (hsym : ∀ r < image.rows, ∀ c < image.cols, image.px r c = image.px c r) :
    valuesAt image (extractMaximaPositions ext image) = .ok ((extractMaximaPositions ext image).map (fun p => image.px p.2 p.1)) ∧
    valuesAt image (extractMinimaPositions ext image) = .ok ((extractMinimaPositions ext image).map (fun p => image.px p.2 p.1)) := by
  constructor
  · rw [valuesAt_ok image _ (fun p hp => by have := mem_maxima hp; omega)]
    congr 1
    apply List.map_congr_left
    intro p hp
    have := mem_maxima hp
    exact hsym _ (by omega) _ (by omega)
  · rw [valuesAt_ok image _ (fun p hp => by have := mem_minima hp; omega)]
    congr 1
    apply List.map_congr_left
    intro p hp
    have := mem_minima hp
    exact hsym _ (by omega) _ (by omega)

example : okWith (· == [5, 5]) (valuesAt ({ rows := 3, cols := 3, data := [0, 0, 5, 0, 0, 0, 5, 0, 0] } : Img ℚ)
    (extractMaximaPositions sampleExt { rows := 3, cols := 3, data := [0, 0, 5, 0, 0, 0, 5, 0, 0] })) = true := by decide +kernel

/-- **C63** does not hold: the peaks of `hills` have the values 5 and 7, the interpolator gets 0 and 0. -/
theorem C63_counterexample : (extractMaximaPositions sampleExt hills).map (fun p => hills.px p.2 p.1) = [5, 7] ∧
    valuesAt hills (extractMaximaPositions sampleExt hills) = .ok [0, 0] := by
  decide +kernel

/-- Stand-ins with a constant surface. -/
def flatExt : Ext ℚ := { reconstruction := sampleReconstruction, rbf := flatSurface }

/-- **C62** does not hold: with the default `FIXE = 1` the component of `hills` is not the result of one iteration. -/
theorem C62_counterexample : ∃ x, sift flatExt (Cfg.default (α := ℚ)) 5 0 0 hills = .ok x ∧ ¬ Iterations flatExt 1 hills x := by
  refine ⟨hills.map (fun x => x - 1 / 2), by decide +kernel, ?_⟩
  intro h
  cases h with
  | more h1 h2 =>
    cases h2
    obtain ⟨lower, upper, he, hx⟩ := h1
    have key : okWith (fun e => decide (hills.map (fun x => x - 1 / 2) ≠ hills.sub ((e.1.add e.2).map (fun x => lit (1 / 2) * x))))
        (extractMaxMinSpline flatExt hills (extractMinimaPositions flatExt hills) (extractMaximaPositions flatExt hills)) = true := by
      decide +kernel
    rw [he] at key
    simp only [okWith, decide_eq_true_eq] at key
    exact key hx

end BEMD

namespace EMD2D

open EMD2D.Spec

/-- **C61** does not hold: two iterations (`FIXE = 1`) on `board` with envelopes of constant height 1/4 subtract 3/4 and not
2 · 1/4. -/
theorem C61_counterexample : ∃ x, sift flatSurface { (Cfg.default (α := ℚ)) with FIXE := 1 } 2 0 0 board (Img.zeros 7 7) = .ok (x, true) ∧
    ¬ ∃ h, SubtractsMean flatSurface board h ∧ SubtractsMean flatSurface h x := by
  refine ⟨board.map (fun x => x - 3 / 4), by decide +kernel, ?_⟩
  rintro ⟨h, ⟨m1, ⟨l1, u1, e1, rfl⟩, rfl⟩, m2, ⟨l2, u2, e2, rfl⟩, hx⟩
  have k1 : okWith (fun e => decide (board.map (fun x => x - 1 / 4) = board.sub ((e.1.add e.2).map (fun x => lit (1 / 2) * x))))
      (extractMaxMinSpline flatSurface board) = true := by decide +kernel
  rw [e1] at k1
  simp only [okWith, decide_eq_true_eq] at k1
  rw [← k1] at e2 hx
  have k2 : okWith (fun e => decide (board.map (fun x => x - 3 / 4) ≠
      (board.map (fun x => x - 1 / 4)).sub ((e.1.add e.2).map (fun x => lit (1 / 2) * x))))
      (extractMaxMinSpline flatSurface (board.map (fun x => x - 1 / 4))) = true := by decide +kernel
  rw [e2] at k2
  simp only [okWith, decide_eq_true_eq] at k2
  exact k2 hx

end EMD2D
end Gen

section Exact
variable {K : Type} [Field K] [LinearOrder K] [IsStrictOrderedRing K] [FloorRing K]

namespace EMD2D

open EMD2D.Spec

theorem sub_zeros (h : Img K) (R C : Nat) (hh : HasShape h R C) : h.sub (Img.zeros R C) = h := by
  unfold Img.sub Img.zeros
  have : vsub h.data (vzeros (R * C)) = h.data := by
    apply List.ext_getElem
    · simp [vsub, vzeros, hh.length]
    · intro i h1 h2
      simp [vsub, vzeros]
  rw [this]

/-- **C61** (part) The first iteration subtracts the envelope mean `m` of the residue.  Any later iteration (second clause:
current proto-IMF `h`, mean `m` of the iteration before) subtracts `m` again and then the envelope mean of `h - m`; the claim
would have `h` in place of `h - m` (`C61_counterexample`). -/
theorem C61_iterations_partial (sbs : Surface K) (cfg : Cfg2 K) (R C : Nat) :
    (∀ (k : Nat) (res : Img K) (x : Img K × Bool), HasShape res R C → sift sbs cfg (k + 1) 0 0 res (Img.zeros R C) = .ok x →
      x = (res, false) ∨ ∃ m h, EnvelopeMean sbs res m ∧ h = res.sub m ∧
        (x = (h, true) ∨ ∃ nH, sift sbs cfg k 1 nH h m = .ok x)) ∧
    ∀ (k n nH : Nat) (h m : Img K) (x : Img K × Bool), sift sbs cfg (k + 1) n nH h m = .ok x →
      x = (h, false) ∨ ∃ m' h', EnvelopeMean sbs (h.sub m) m' ∧ h' = (h.sub m).sub m' ∧
        (x = (h', true) ∨ ∃ nH', sift sbs cfg k (n + 1) nH' h' m' = .ok x) := by
  constructor
  · intro k res x hres hx
    rcases sift_body hx with h | ⟨m', h1, h2⟩
    · exact .inl h
    · rw [sub_zeros res R C hres] at h1 h2
      exact .inr ⟨m', _, h1, rfl, h2⟩
  · intro k n nH h m x hx
    rcases sift_body hx with h | ⟨m', h1, h2⟩
    · exact .inl h
    · exact .inr ⟨m', _, h1, rfl, h2⟩

example : okWith (fun x => decide (x = (board.map (fun x => x - 1 / 4), true)))
    (sift flatSurface (Cfg.default (α := ℚ)) 1000 0 0 board (Img.zeros 7 7)) = true := by decide +kernel

end EMD2D
end Exact
end PyEMD
