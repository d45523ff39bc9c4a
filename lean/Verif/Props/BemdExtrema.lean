import Mathlib.Combinatorics.SimpleGraph.Paths
import Mathlib.Combinatorics.SimpleGraph.Connectivity.Connected
import Verif.Model.Reconstruction
import Verif.Spec.Regional
import Verif.Props.Image2

/-!
# C147: which pixels BEMD takes for extrema
-/

set_option linter.unusedSectionVars false

namespace PyEMD
namespace Skimage

open Img Img.Spec

variable {K : Type} [Field K] [LinearOrder K] [IsStrictOrderedRing K] [FloorRing K]

theorem window_le (im : Img K) (r c : Nat) (hr : r < im.rows) (hc : c < im.cols) (v : K) :
    v ≤ npMax (EMD2D.window im r c) ↔ ∃ r' c', Near r c r' c' ∧ r' < im.rows ∧ c' < im.cols ∧ v ≤ im.px r' c' := by
  have hne : EMD2D.window im r c ≠ [] := by simp [EMD2D.window]
  obtain ⟨m1, m2⟩ := npMax_spec hne
  have hmem : ∀ x, x ∈ EMD2D.window im r c ↔ ∃ r' c', Near r c r' c' ∧ r' < im.rows ∧ c' < im.cols ∧ x = im.px r' c' := by
    intro x
    unfold EMD2D.window Near
    simp only [List.flatMap_cons, List.flatMap_nil, List.map_cons, List.map_nil, List.append_nil, List.cons_append,
      List.nil_append, List.mem_cons, List.not_mem_nil, or_false]
    constructor
    · have key : ∀ i j, r - 1 ≤ i → i ≤ r + 1 → i < im.rows → c - 1 ≤ j → j ≤ c + 1 → j < im.cols → x = im.px i j →
          ∃ r' c', (r' ≤ r + 1 ∧ r ≤ r' + 1 ∧ c' ≤ c + 1 ∧ c ≤ c' + 1) ∧ r' < im.rows ∧ c' < im.cols ∧ x = im.px r' c' := by
        intro i j a1 a2 a3 a4 a5 a6 hx
        exact ⟨i, j, ⟨by omega, by omega, by omega, by omega⟩, a3, a6, hx⟩
      rintro (h | h | h | h | h | h | h | h | h) <;>
        exact key _ _ (by omega) (by omega) (by omega) (by omega) (by omega) (by omega) h
    · rintro ⟨r', c', ⟨a1, a2, a3, a4⟩, a5, a6, hx⟩
      have e1 : r' = r - 1 ∨ r' = r ∨ r' = min (r + 1) (im.rows - 1) := by omega
      have e2 : c' = c - 1 ∨ c' = c ∨ c' = min (c + 1) (im.cols - 1) := by omega
      subst hx
      rcases e1 with h | h | h <;> rcases e2 with h' | h' | h' <;> rw [h, h'] <;> simp
  constructor
  · intro h
    obtain ⟨r', c', hn, h1, h2, hx⟩ := (hmem _).1 m1
    exact ⟨r', c', hn, h1, h2, by rw [← hx]; exact h⟩
  · rintro ⟨r', c', hn, h1, h2, hx⟩
    exact hx.trans (m2 _ ((hmem _).2 ⟨r', c', hn, h1, h2, rfl⟩))

theorem iterate_shape (mask seed : Img K) (hm : WF mask) (hs : HasShape seed mask.rows mask.cols) :
    ∀ k, HasShape ((dilate mask)^[k] seed) mask.rows mask.cols
  | 0 => hs
  | k + 1 => by
    rw [Function.iterate_succ_apply']
    exact HasShape.ofFn _ _ _

theorem reconstruct_shape (mask seed : Img K) (hm : WF mask) (hs : HasShape seed mask.rows mask.cols) :
    HasShape (reconstruct seed mask) mask.rows mask.cols := iterate_shape mask seed hm hs _

/-- One more dilation. -/
theorem iterate_step (mask seed : Img K) (hm : WF mask) (hs : HasShape seed mask.rows mask.cols) (k r c : Nat)
    (hr : r < mask.rows) (hc : c < mask.cols) (v : K) :
    v ≤ ((dilate mask)^[k + 1] seed).px r c ↔ v ≤ mask.px r c ∧
      ∃ r' c', Near r c r' c' ∧ r' < mask.rows ∧ c' < mask.cols ∧ v ≤ ((dilate mask)^[k] seed).px r' c' := by
  have hk := iterate_shape mask seed hm hs k
  rw [Function.iterate_succ_apply']
  generalize (dilate mask)^[k] seed = im at hk
  unfold dilate
  rw [ofFn_px _ _ _ _ _ hr hc]
  have hw := window_le im r c (by rw [hk.rows_eq]; exact hr) (by rw [hk.cols_eq]; exact hc) v
  rw [hk.rows_eq, hk.cols_eq] at hw
  rw [← hw]
  dsimp only
  split
  · rename_i h
    exact ⟨fun h' => ⟨h'.trans h, h'⟩, fun h' => h'.2⟩
  · rename_i h
    exact ⟨fun h' => ⟨h', h'.trans (le_of_lt (not_le.1 h))⟩, fun h' => h'.1⟩

theorem near_self (r c : Nat) : Near r c r c := by unfold Near; omega

theorem hasValue_px {im : Img K} (hw : WF im) {p : Nat × Nat} (hp : Inside im p) : HasValue im p (im.px p.1 p.2) :=
  ⟨hp, at_some im hw _ _ hp.1 hp.2⟩

theorem hasValue_eq {im : Img K} {p : Nat × Nat} {x : K} (h : HasValue im p x) : im.px p.1 p.2 = x := px_eq h.2

/-- The graph of the pixels of value `v` or more. -/
def graph (im : Img K) (v : K) : SimpleGraph (Fin im.rows × Fin im.cols) where
  Adj a b := a ≠ b ∧ Near a.1 a.2 b.1 b.2 ∧ v ≤ im.px a.1 a.2 ∧ v ≤ im.px b.1 b.2
  symm := ⟨by
    rintro a b ⟨h1, h2, h3, h4⟩
    refine ⟨h1.symm, ?_, h4, h3⟩
    unfold Near at h2 ⊢
    omega⟩
  loopless := ⟨fun a h => h.1 rfl⟩

/-- Pixels connected by a path are connected in the graph. -/
theorem reachable_of_path {im : Img K} {v : K} {p q : Nat × Nat} (hp : Inside im p) (hv : v ≤ im.px p.1 p.2)
    (h : Path im (v ≤ ·) p q) : ∃ hq : Inside im q, v ≤ im.px q.1 q.2 ∧
      (graph im v).Reachable (⟨p.1, hp.1⟩, ⟨p.2, hp.2⟩) (⟨q.1, hq.1⟩, ⟨q.2, hq.2⟩) := by
  induction h with
  | refl => exact ⟨hp, hv, SimpleGraph.Reachable.refl _⟩
  | @tail a b _ hstep ih =>
    obtain ⟨ha, hva, hreach⟩ := ih
    obtain ⟨hn, y, hy, hvy⟩ := hstep
    have hb := hy.1
    have hvb : v ≤ im.px b.1 b.2 := by rw [hasValue_eq hy]; exact hvy
    refine ⟨hb, hvb, ?_⟩
    by_cases hab : a = b
    · subst hab
      exact hreach
    · refine hreach.trans (SimpleGraph.Adj.reachable ?_)
      refine ⟨?_, hn, hva, hvb⟩
      intro he
      apply hab
      rw [Prod.mk.injEq, Fin.mk.injEq, Fin.mk.injEq] at he
      exact Prod.ext he.1 he.2

/-- What lies on a walk is reached by that many dilations. -/
theorem reached_of_walk (mask seed : Img K) (hm : WF mask) (hs : HasShape seed mask.rows mask.cols) (v : K)
    {p q : Fin mask.rows × Fin mask.cols} (w : (graph mask v).Walk p q) (hp : v ≤ mask.px p.1 p.2) (hq : v ≤ seed.px q.1 q.2) :
    ∀ k, w.length ≤ k → v ≤ ((dilate mask)^[k] seed).px p.1 p.2 := by
  induction w with
  | nil =>
    intro k _
    induction k with
    | zero => exact hq
    | succ k ih =>
      refine (iterate_step mask seed hm hs k _ _ (Fin.is_lt _) (Fin.is_lt _) v).2 ⟨hp, _, _, near_self _ _, Fin.is_lt _, Fin.is_lt _, ih ?_⟩
      simp
  | cons hadj w ih =>
    intro k hk
    cases k with
    | zero => simp at hk
    | succ k =>
      rw [SimpleGraph.Walk.length_cons] at hk
      exact (iterate_step mask seed hm hs k _ _ (Fin.is_lt _) (Fin.is_lt _) v).2
        ⟨hp, _, _, hadj.2.1, Fin.is_lt _, Fin.is_lt _, ih hadj.2.2.2 hq k (by omega)⟩

theorem path_of_reached (mask seed : Img K) (hm : WF mask) (hs : HasShape seed mask.rows mask.cols)
    (hle : ∀ r < mask.rows, ∀ c < mask.cols, seed.px r c ≤ mask.px r c) (v : K) :
    ∀ (k : Nat) (p : Nat × Nat), Inside mask p → v ≤ ((dilate mask)^[k] seed).px p.1 p.2 →
      ∃ q, Inside mask q ∧ v ≤ mask.px p.1 p.2 ∧ Path mask (v ≤ ·) p q ∧ v ≤ seed.px q.1 q.2
  | 0, p, hp, h => ⟨p, hp, h.trans (hle _ hp.1 _ hp.2), Relation.ReflTransGen.refl, h⟩
  | k + 1, p, hp, h => by
    obtain ⟨h1, r', c', hn, hr', hc', h2⟩ := (iterate_step mask seed hm hs k _ _ hp.1 hp.2 v).1 h
    obtain ⟨q, hq, hv, hpath, hsq⟩ := path_of_reached mask seed hm hs hle v k (r', c') ⟨hr', hc'⟩ h2
    exact ⟨q, hq, h1, Relation.ReflTransGen.head ⟨hn, _, hasValue_px hm ⟨hr', hc'⟩, hv⟩ hpath, hsq⟩

/-- **C147**: the reconstruction reaches the height `v` at a pixel exactly if that pixel is connected, over pixels at which the mask has
the height `v`, to a pixel at which the seed has the height `v`. -/
theorem C147_reconstruction (seed mask : Img K) (hm : WF mask) (hs : HasShape seed mask.rows mask.cols)
    (hle : ∀ r < mask.rows, ∀ c < mask.cols, seed.px r c ≤ mask.px r c) (p : Nat × Nat) (hp : Inside mask p) (v : K) :
    v ≤ (reconstruct seed mask).px p.1 p.2 ↔
      v ≤ mask.px p.1 p.2 ∧ ∃ q, Inside mask q ∧ Path mask (v ≤ ·) p q ∧ v ≤ seed.px q.1 q.2 := by
  constructor
  · intro h
    obtain ⟨q, hq, hv, hpath, hsq⟩ := path_of_reached mask seed hm hs hle v _ p hp h
    exact ⟨hv, q, hq, hpath, hsq⟩
  · rintro ⟨hv, q, hq, hpath, hsq⟩
    obtain ⟨_, _, ⟨w⟩⟩ := reachable_of_path hp hv hpath
    classical
    refine reached_of_walk mask seed hm hs v (p := (⟨p.1, hp.1⟩, ⟨p.2, hp.2⟩)) (q := (⟨q.1, hq.1⟩, ⟨q.2, hq.2⟩)) w.toPath.1 hv hsq _ ?_
    have := SimpleGraph.Walk.IsPath.length_lt w.toPath.2
    rw [Fintype.card_prod, Fintype.card_fin, Fintype.card_fin] at this
    exact this.le

/-- A seed of one pixel fills the basin under the mask up to the pass. -/
example : reconstruct ({ rows := 1, cols := 5, data := [3, 0, 0, 0, 0] } : Img ℚ) { rows := 1, cols := 5, data := [3, 1, 2, 2, 5] } =
    { rows := 1, cols := 5, data := [3, 1, 1, 1, 1] } := by decide +kernel

end Skimage

namespace BEMD

open Img Img.Spec Skimage

variable {K : Type} [Field K] [LinearOrder K] [IsStrictOrderedRing K] [FloorRing K]

theorem map_px (im : Img K) (hw : WF im) (f : K → K) {p : Nat × Nat} (hp : Inside im p) :
    (im.map f).px p.1 p.2 = f (im.px p.1 p.2) := by
  apply px_eq
  rw [EMD2D.at_map, at_some im hw _ _ hp.1 hp.2]
  rfl

theorem sub_px {a b : Img K} {R C : Nat} (ha : HasShape a R C) (hb : HasShape b R C) {r c : Nat} (hr : r < R) (hc : c < C) :
    (a.sub b).px r c = a.px r c - b.px r c := by
  have h1 := at_some a ha.wf r c (by rw [ha.rows_eq]; exact hr) (by rw [ha.cols_eq]; exact hc)
  have h2 := at_some b hb.wf r c (by rw [hb.rows_eq]; exact hr) (by rw [hb.cols_eq]; exact hc)
  apply px_eq
  unfold at? at h1 h2 ⊢
  rw [hb.cols_eq] at h2
  show (vsub a.data b.data)[r * a.cols + c]? = _
  rw [ha.cols_eq] at h1 ⊢
  unfold vsub
  rw [List.getElem?_zipWith, h1, h2]

theorem mem_where (rows cols : Nat) (P : Nat × Nat → Bool) (r c : Nat) :
    (c, r) ∈ (((List.range rows).flatMap (fun r => (List.range cols).map (fun c => (r, c)))).filter P).map (fun p => (p.2, p.1)) ↔
      r < rows ∧ c < cols ∧ P (r, c) = true := by
  simp only [List.mem_map, List.mem_filter, List.mem_flatMap, List.mem_range, Prod.mk.injEq, Prod.exists]
  constructor
  · rintro ⟨a, b, ⟨⟨a', ha, b', hb, rfl, rfl⟩, hP⟩, rfl, rfl⟩
    exact ⟨ha, hb, hP⟩
  · rintro ⟨hr, hc, hP⟩
    exact ⟨r, c, ⟨⟨r, hr, c, hc, rfl, rfl⟩, hP⟩, rfl, rfl⟩

/-- **C147**: exactly those pixels are taken for maxima from which no path over pixels that are at least as high leads up by one unit or
more.  (Positions are stored as column and row.) -/
theorem C147_reported (rbf : Surface K) (im : Img K) (hw : WF im) (r c : Nat) :
    (c, r) ∈ extractMaximaPositions (ext rbf) im ↔
      ∃ x, HasValue im (r, c) x ∧ ∀ q y, Path im (x ≤ ·) (r, c) q → HasValue im q y → y < x + 1 := by
  have hsh : HasShape (im.map (fun x => x - 1)) im.rows im.cols := (⟨hw, rfl, rfl⟩ : HasShape im im.rows im.cols).map _
  have hle : ∀ r < im.rows, ∀ c < im.cols, (im.map (fun x => x - 1)).px r c ≤ im.px r c := by
    intro r hr c hc
    rw [map_px im hw _ (p := (r, c)) ⟨hr, hc⟩]
    linarith
  unfold extractMaximaPositions
  dsimp only
  rw [mem_where]
  simp only [lit_zero, lit_one, decide_eq_true_eq]
  show r < im.rows ∧ c < im.cols ∧ 0 < (im.sub (reconstruct (im.map (fun x => x - 1)) im)).px r c ↔ _
  constructor
  · rintro ⟨hr, hc, h⟩
    rw [sub_px (⟨hw, rfl, rfl⟩ : HasShape im im.rows im.cols) (reconstruct_shape im _ hw hsh) hr hc, sub_pos] at h
    refine ⟨_, hasValue_px hw (p := (r, c)) ⟨hr, hc⟩, ?_⟩
    intro q y hpath hy
    by_contra hge
    refine absurd ((C147_reconstruction _ im hw hsh hle (r, c) ⟨hr, hc⟩ (im.px r c)).2 ⟨le_refl _, q, hy.1, hpath, ?_⟩) (not_le.2 h)
    rw [map_px im hw _ hy.1, hasValue_eq hy]
    linarith
  · rintro ⟨x, hx, hall⟩
    have hr : r < im.rows := hx.1.1
    have hc : c < im.cols := hx.1.2
    have hxv : im.px r c = x := hasValue_eq hx
    refine ⟨hr, hc, ?_⟩
    rw [sub_px (⟨hw, rfl, rfl⟩ : HasShape im im.rows im.cols) (reconstruct_shape im _ hw hsh) hr hc, sub_pos]
    by_contra hge
    obtain ⟨_, q, hq, hpath, hsq⟩ := (C147_reconstruction _ im hw hsh hle (r, c) ⟨hr, hc⟩ (im.px r c)).1 (not_lt.1 hge)
    rw [hxv] at hpath
    have := hall q _ hpath (hasValue_px hw hq)
    rw [map_px im hw _ hq] at hsq
    rw [hxv] at hsq
    linarith

/-- Different values differ by one unit or more, as in images of integers. -/
def Graded (im : Img K) : Prop := ∀ x ∈ im.data, ∀ y ∈ im.data, x < y → x + 1 ≤ y

theorem HasValue.mem {im : Img K} {p : Nat × Nat} {x : K} (h : HasValue im p x) : x ∈ im.data := List.mem_of_getElem? h.2

/-- **C147, partial.**  In images whose values are integers (or otherwise differ by one unit at least) exactly the pixels of the regional
maxima are taken for maxima.  Every pixel of a regional maximum is found in any image.  Missing: that no others are found in images
with finer gradations, see `C147_low_contrast` and `C147_counterexample`. -/
theorem C147_maxima_partial (rbf : Surface K) (im : Img K) (hw : WF im) (r c : Nat) :
    (RegionalMax im (r, c) → (c, r) ∈ extractMaximaPositions (ext rbf) im) ∧
    (Graded im → (c, r) ∈ extractMaximaPositions (ext rbf) im → RegionalMax im (r, c)) := by
  rw [C147_reported rbf im hw r c]
  constructor
  · rintro ⟨x, hx, hreg⟩
    refine ⟨x, hx, ?_⟩
    have key : ∀ q, Path im (x ≤ ·) (r, c) q → Path im (· = x) (r, c) q ∧ HasValue im q x := by
      intro q hpath
      induction hpath with
      | refl => exact ⟨Relation.ReflTransGen.refl, hx⟩
      | @tail a b _ hstep ih =>
        obtain ⟨hn, y, hy, hxy⟩ := hstep
        have : y = x := le_antisymm (hreg a b y ih.1 hn hy) hxy
        subst this
        exact ⟨ih.1.tail ⟨hn, y, hy, rfl⟩, hy⟩
    intro q y hpath hy
    have h1 := hasValue_eq (key q hpath).2
    rw [hasValue_eq hy] at h1
    subst h1
    linarith
  · rintro hg ⟨x, hx, hall⟩
    refine ⟨x, hx, ?_⟩
    intro q s y hpath hn hy
    by_contra hlt
    have hlt := not_le.1 hlt
    have h1 : Path im (x ≤ ·) (r, c) q := by
      have hmono : ∀ a b, StepTo im (· = x) a b → StepTo im (x ≤ ·) a b := by
        rintro a b ⟨hn, y, hy, rfl⟩
        exact ⟨hn, y, hy, le_refl _⟩
      clear hn
      induction hpath with
      | refl => exact Relation.ReflTransGen.refl
      | tail _ hstep ih => exact ih.tail (hmono _ _ hstep)
    have h2 := hall s y (h1.tail ⟨hn, y, hy, hlt.le⟩) hy
    have := hg x (HasValue.mem hx) y (HasValue.mem hy) hlt
    linarith

theorem hasValue_neg {im : Img K} {p : Nat × Nat} {x : K} : HasValue (im.map (fun x => -x)) p x ↔ HasValue im p (-x) := by
  unfold HasValue
  rw [EMD2D.at_map, Option.map_eq_some_iff]
  constructor
  · rintro ⟨h1, y, h2, rfl⟩
    exact ⟨h1, by rw [h2, neg_neg]⟩
  · rintro ⟨h1, h2⟩
    exact ⟨h1, _, h2, by rw [neg_neg]⟩

theorem path_neg {im : Img K} {P : K → Prop} {p q : Nat × Nat} (h : Path (im.map (fun x => -x)) P p q) : Path im (fun x => P (-x)) p q := by
  induction h with
  | refl => exact Relation.ReflTransGen.refl
  | tail _ hstep ih =>
    obtain ⟨hn, y, hy, hP⟩ := hstep
    exact ih.tail ⟨hn, -y, hasValue_neg.1 hy, show P (- -y) by rw [neg_neg]; exact hP⟩

theorem path_neg' {im : Img K} {P : K → Prop} {p q : Nat × Nat} (h : Path im (fun x => P (-x)) p q) : Path (im.map (fun x => -x)) P p q := by
  induction h with
  | refl => exact Relation.ReflTransGen.refl
  | tail _ hstep ih =>
    obtain ⟨hn, y, hy, hP⟩ := hstep
    exact ih.tail ⟨hn, -y, hasValue_neg.2 (by rw [neg_neg]; exact hy), hP⟩

theorem regional_neg (im : Img K) (p : Nat × Nat) : RegionalMax (im.map (fun x => -x)) p ↔ RegionalMin im p := by
  constructor
  · rintro ⟨x, hx, h⟩
    refine ⟨-x, hasValue_neg.1 hx, fun q r y hpath hn hy => ?_⟩
    have hpath' : Path (im.map (fun x => -x)) (· = x) p q := by
      apply path_neg'
      have e : (fun z : K => -z = x) = (· = -x) := by
        funext z
        exact propext ⟨fun h => by rw [← h, neg_neg], fun h => by rw [h, neg_neg]⟩
      rw [e]
      exact hpath
    have := h q r (-y) hpath' hn (hasValue_neg.2 (by rw [neg_neg]; exact hy))
    linarith
  · rintro ⟨x, hx, h⟩
    refine ⟨-x, hasValue_neg.2 (by rw [neg_neg]; exact hx), fun q r y hpath hn hy => ?_⟩
    have hpath' := path_neg hpath
    have e : (fun z : K => -z = -x) = (· = x) := by
      funext z
      exact propext ⟨fun h => neg_injective h, fun h => by rw [h]⟩
    rw [e] at hpath'
    have := h q r (-y) hpath' hn (hasValue_neg.1 hy)
    linarith

theorem graded_neg {im : Img K} (h : Graded im) : Graded (im.map (fun x => -x)) := by
  intro x hx y hy hxy
  obtain ⟨x', hx', rfl⟩ := List.mem_map.1 hx
  obtain ⟨y', hy', rfl⟩ := List.mem_map.1 hy
  have := h y' hy' x' hx' (by linarith)
  linarith

/-- **C147, partial**: minima, likewise. -/
theorem C147_minima_partial (rbf : Surface K) (im : Img K) (hw : WF im) (r c : Nat) :
    (RegionalMin im (r, c) → (c, r) ∈ extractMinimaPositions (ext rbf) im) ∧
    (Graded im → (c, r) ∈ extractMinimaPositions (ext rbf) im → RegionalMin im (r, c)) := by
  have h := C147_maxima_partial rbf (im.map (fun x => -x)) (map_wf _ hw) r c
  rw [regional_neg] at h
  exact ⟨h.1, fun hg => h.2 (graded_neg hg)⟩

/-- An image of integers with two peaks, one of them a plateau, and a shoulder of height 2 that is no peak. -/
def plateaus : Img ℚ :=
  { rows := 3, cols := 6, data :=
    [0, 4, 0, 0, 0, 3,
     0, 4, 2, 2, 0, 0,
     0, 0, 0, 0, 0, 0] }

/-- `C147_maxima_partial` and `C147_minima_partial` apply to it. -/
example : WF plateaus ∧ Graded plateaus ∧
    extractMaximaPositions (ext meanSurface) plateaus = [(1, 0), (5, 0), (1, 1)] := by
  refine ⟨by unfold WF; decide, ?_, by decide +kernel⟩
  unfold Graded
  decide +kernel

/-- **C147**: in an image whose contrast is below one unit every pixel is taken for a maximum and for a minimum. -/
theorem C147_low_contrast (rbf : Surface K) (im : Img K) (hw : WF im) (hlow : ∀ x ∈ im.data, ∀ y ∈ im.data, y < x + 1)
    (r c : Nat) (hr : r < im.rows) (hc : c < im.cols) :
    (c, r) ∈ extractMaximaPositions (ext rbf) im ∧ (c, r) ∈ extractMinimaPositions (ext rbf) im := by
  constructor
  · rw [C147_reported rbf im hw r c]
    have hx := hasValue_px hw (p := (r, c)) ⟨hr, hc⟩
    exact ⟨_, hx, fun q y _ hy => hlow _ (HasValue.mem hx) _ (HasValue.mem hy)⟩
  · unfold extractMinimaPositions
    rw [C147_reported rbf _ (map_wf _ hw) r c]
    have hx := hasValue_px (map_wf (fun x => -x) hw) (p := (r, c)) ⟨hr, hc⟩
    refine ⟨_, hx, fun q y _ hy => ?_⟩
    have h1 := HasValue.mem (hasValue_neg.1 hx)
    have h2 := HasValue.mem (hasValue_neg.1 hy)
    have := hlow _ h2 _ h1
    linarith

/-- A ramp from 0 to 3/4: each of its pixels counts as a maximum, though only the last one is one. -/
def ramp : Img ℚ := { rows := 1, cols := 4, data := [0, 1 / 4, 1 / 2, 3 / 4] }

example : WF ramp ∧ ∀ x ∈ ramp.data, ∀ y ∈ ramp.data, y < x + 1 := ⟨by unfold WF; decide, by decide +kernel⟩

/-- **C147 in full is violated**: the first pixel of the ramp is reported as a maximum though the next one is higher. -/
theorem C147_counterexample : WF ramp ∧ (0, 0) ∈ extractMaximaPositions (ext meanSurface) ramp ∧ ¬ RegionalMax ramp (0, 0) := by
  refine ⟨by unfold WF; decide, by decide +kernel, ?_⟩
  rintro ⟨x, hx, h⟩
  have hx0 := hasValue_eq hx
  have h1 : HasValue ramp (0, 1) (1 / 4) := ⟨⟨by decide, by decide⟩, by decide +kernel⟩
  have := h (0, 0) (0, 1) (1 / 4) Relation.ReflTransGen.refl (by unfold Near; decide) h1
  rw [← hx0] at this
  revert this
  decide +kernel

end BEMD
end PyEMD
