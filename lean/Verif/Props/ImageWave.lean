import Verif.Props.ImageTotal
import Verif.Spec.ImageWave
import Verif.Spec.ImageSamples

/-!
# C167: `EMD2D` on images whose tops are equally bright and whose bottoms are equally dark
-/

set_option linter.unusedSectionVars false

namespace PyEMD
namespace EMD2D
open Img Img.Spec

variable {K : Type} [Field K] [LinearOrder K] [IsStrictOrderedRing K] [FloorRing K]

theorem level_shape (R C : Nat) (v : K) : HasShape (level R C v) R C := ⟨by simp [WF, level], rfl, rfl⟩

theorem ofFn_level (R C : Nat) (f : Nat → Nat → K) (v : K) (h : ∀ i j, f i j = v) : Img.ofFn R C f = level R C v := by
  have hl := (HasShape.ofFn R C f).length
  unfold level
  have : (Img.ofFn R C f).data = List.replicate (R * C) v := by
    rw [List.eq_replicate_iff]
    refine ⟨hl, ?_⟩
    intro b hb
    unfold Img.ofFn at hb
    simp only [List.mem_flatMap, List.mem_map] at hb
    obtain ⟨r, -, c, -, rfl⟩ := hb
    exact h r c
  rw [← this]
  rfl

theorem sub_level {x : Img K} {R C : Nat} (h : HasShape x R C) (v : K) : x.sub (level R C v) = x.map (fun y => y - v) := by
  have hl := h.length
  unfold Img.sub Img.map level vsub
  congr 1
  apply List.ext_getElem
  · simp [hl]
  · intro i h1 h2
    simp

theorem level_map (R C : Nat) (v : K) (f : K → K) : (level R C v).map f = level R C (f v) := by
  unfold Img.map level
  simp

theorem level_add (R C : Nat) (a b : K) : (level R C a).add (level R C b) = level R C (a + b) := by
  unfold Img.add level vadd
  simp

/-- A coordinate next to the one that is shown is shown next to it. -/
theorem mirrored_near {n i j : Nat} (hi : i < 3 * n) (hj : j < n) (h1 : j ≤ mirrored n i + 1) (h2 : mirrored n i ≤ j + 1) :
    ∃ k, k < 3 * n ∧ mirrored n k = j ∧ k ≤ i + 1 ∧ i ≤ k + 1 := by
  unfold mirrored at h1 h2 ⊢
  split_ifs at h1 h2 with c1 c2
  · exact ⟨n - 1 - j, by omega, by rw [if_pos (by omega)]; omega, by omega, by omega⟩
  · exact ⟨n + j, by omega, by rw [if_neg (by omega), if_pos (by omega)]; omega, by omega, by omega⟩
  · exact ⟨3 * n - 1 - j, by omega, by rw [if_neg (by omega), if_neg (by omega)]; omega, by omega, by omega⟩

theorem top_of_big {im : Img K} (hw : WF im) {R C : Nat} (hR : R < 3 * im.rows) (hC : C < 3 * im.cols) (h : TopAmongNeighbours (prepareImage im) R C) :
    TopInside im (mirrored im.rows R) (mirrored im.cols C) ((prepareImage im).px R C) := by
  obtain ⟨x, hx, hall⟩ := h
  obtain ⟨e1, e2, -, hb⟩ := C47_mirrored im hw
  rw [px_eq hx]
  refine ⟨mirrored_lt _ _ (by omega), mirrored_lt _ _ (by omega), by rw [← hb R hR C hC, hx], fun r' c' z hn hr hc hz => ?_⟩
  unfold Near at hn
  obtain ⟨k, k1, k2, k3, k4⟩ := mirrored_near hR hr hn.1 hn.2.1
  obtain ⟨l, l1, l2, l3, l4⟩ := mirrored_near hC hc hn.2.2.1 hn.2.2.2
  refine hall k l z ⟨k3, k4, l3, l4⟩ ?_
  rw [hb k k1 l l1, k2, l2, hz]

theorem bottom_of_big {im : Img K} (hw : WF im) {R C : Nat} (hR : R < 3 * im.rows) (hC : C < 3 * im.cols)
    (h : BottomAmongNeighbours (prepareImage im) R C) : BottomInside im (mirrored im.rows R) (mirrored im.cols C) ((prepareImage im).px R C) := by
  obtain ⟨x, hx, hall⟩ := h
  obtain ⟨e1, e2, -, hb⟩ := C47_mirrored im hw
  rw [px_eq hx]
  refine ⟨mirrored_lt _ _ (by omega), mirrored_lt _ _ (by omega), by rw [← hb R hR C hC, hx], fun r' c' z hn hr hc hz => ?_⟩
  unfold Near at hn
  obtain ⟨k, k1, k2, k3, k4⟩ := mirrored_near hR hr hn.1 hn.2.1
  obtain ⟨l, l1, l2, l3, l4⟩ := mirrored_near hC hc hn.2.2.1 hn.2.2.2
  refine hall k l z ⟨k3, k4, l3, l4⟩ ?_
  rw [hb k k1 l l1, k2, l2, hz]

theorem top_among {im : Img K} (hw : WF im) {r c : Nat} {x : K} (hi : Interior im.rows im.cols r c) (h : TopInside im r c x) : TopAmongNeighbours im r c := by
  obtain ⟨-, -, hx, hall⟩ := h
  unfold Interior at hi
  refine ⟨x, hx, fun r' c' y hn hy => hall r' c' y hn ?_ ?_ hy⟩ <;> unfold Near at hn <;> omega

theorem bottom_among {im : Img K} (hw : WF im) {r c : Nat} {x : K} (hi : Interior im.rows im.cols r c) (h : BottomInside im r c x) :
    BottomAmongNeighbours im r c := by
  obtain ⟨-, -, hx, hall⟩ := h
  unfold Interior at hi
  refine ⟨x, hx, fun r' c' y hn hy => hall r' c' y hn ?_ ?_ hy⟩ <;> unfold Near at hn <;> omega

theorem peaks_pos {im : Img K} {lo hi : K} (h : EqualPeaks im lo hi) : 0 < im.rows ∧ 0 < im.cols := by
  obtain ⟨ps, -, hl, hall⟩ := h.manyTops
  obtain ⟨p, hp⟩ := List.exists_mem_of_length_pos (show 0 < ps.length by omega)
  have := (hall p hp).1
  unfold Interior at this
  omega

/-- Enough extrema are found. -/
theorem findExtrema_peaks {im : Img K} {lo hi : K} (h : EqualPeaks im lo hi) : ∃ mn mx, findExtrema im = .ok (mn, mx) ∧ 4 < mn.length ∧ 4 < mx.length := by
  obtain ⟨hr, hc⟩ := peaks_pos h
  obtain ⟨⟨mn, mx⟩, he⟩ := findExtrema_total im hr hc
  obtain ⟨m1, m2⟩ := C50_find_extrema im h.wf mn mx he
  refine ⟨mn, mx, he, ?_, ?_⟩
  · obtain ⟨ps, hd, hl, hall⟩ := h.manyBottoms
    have : ps.length ≤ mn.length := (hd.subperm (fun p hp => by
      obtain ⟨hi, x, hx⟩ := hall p hp
      exact (m2 p.1 p.2).2 ⟨hi, bottom_among h.wf hi hx⟩)).length_le
    omega
  · obtain ⟨ps, hd, hl, hall⟩ := h.manyTops
    have : ps.length ≤ mx.length := (hd.subperm (fun p hp => by
      obtain ⟨hi, x, hx⟩ := hall p hp
      exact (m1 p.1 p.2).2 ⟨hi, top_among h.wf hi hx⟩)).length_le
    omega

/-- Both envelopes are level. -/
theorem extract_peaks {sbs : Surface K} (hs : KeepsLevel sbs) {im : Img K} {lo hi : K} (h : EqualPeaks im lo hi) :
    extractMaxMinSpline sbs im = .ok (level im.rows im.cols lo, level im.rows im.cols hi) := by
  have hw := h.wf
  obtain ⟨mn, mx, hf, h1, h2⟩ := findExtrema_peaks h
  obtain ⟨e1, e2, hwb, hb⟩ := C47_mirrored im hw
  obtain ⟨m1, m2⟩ := C50_find_extrema im hw mn mx hf
  obtain ⟨d1, d2⟩ := findExtrema_nodup hf
  obtain ⟨hr, hc⟩ := peaks_pos h
  obtain ⟨⟨bn, bx⟩, he⟩ := findExtrema_total (prepareImage im) (by rw [e1]; omega) (by rw [e2]; omega)
  obtain ⟨b1, b2⟩ := C50_find_extrema _ hwb bn bx he
  rw [e1, e2] at b1 b2
  have lx : 4 * mx.length ≤ bx.length := copies_many (im := im) mx bx d2 (fun p hp => ((m1 p.1 p.2).1 hp).1) (by
    intro p hp R C hR hC hi
    obtain ⟨hin, x, hx, hall⟩ := (m1 p.1 p.2).1 hp
    unfold Interior at hin
    exact (b1 _ _).2 ⟨hi, big_top hw ⟨by omega, by omega, hx, fun r' c' z hn _ _ hz => hall r' c' z hn hz⟩ hR hC hi⟩)
  have ln : 4 * mn.length ≤ bn.length := copies_many (im := im) mn bn d1 (fun p hp => ((m2 p.1 p.2).1 hp).1) (by
    intro p hp R C hR hC hi
    obtain ⟨hin, x, hx, hall⟩ := (m2 p.1 p.2).1 hp
    unfold Interior at hin
    exact (b2 _ _).2 ⟨hi, big_bottom hw ⟨by omega, by omega, hx, fun r' c' z hn _ _ hz => hall r' c' z hn hz⟩ hR hC hi⟩)
  obtain ⟨s1, t1, u1⟩ := hs (bn.map (·.1)) (bn.map (·.2)) (bn.map (fun p => (prepareImage im).px p.1 p.2)) lo (by simp; omega) (by simp) (by simp) (by
    intro z hz
    obtain ⟨p, hp, rfl⟩ := List.mem_map.1 hz
    obtain ⟨hi', ht⟩ := (b2 p.1 p.2).1 hp
    unfold Interior at hi'
    exact h.bottoms _ _ _ (bottom_of_big hw (by omega) (by omega) ht))
  obtain ⟨s2, t2, u2⟩ := hs (bx.map (·.1)) (bx.map (·.2)) (bx.map (fun p => (prepareImage im).px p.1 p.2)) hi (by simp; omega) (by simp) (by simp) (by
    intro z hz
    obtain ⟨p, hp, rfl⟩ := List.mem_map.1 hz
    obtain ⟨hi', ht⟩ := (b1 p.1 p.2).1 hp
    unfold Interior at hi'
    exact h.tops _ _ _ (top_of_big hw (by omega) (by omega) ht))
  unfold extractMaxMinSpline splinePoints
  simp only [he, t1, t2, bind, Except.bind, pure, Except.pure]
  rw [ofFn_level _ _ _ lo (fun i j => u1 _ _), ofFn_level _ _ _ hi (fun i j => u2 _ _)]

/-! ## Increasing changes of the brightness -/

theorem topInside_map {im : Img K} {f : K → K} (hf : StrictMono f) {r c : Nat} {y : K} :
    TopInside (im.map f) r c y ↔ ∃ x, TopInside im r c x ∧ f x = y := by
  constructor
  · rintro ⟨hr, hc, hx, hall⟩
    rw [at_map, Option.map_eq_some_iff] at hx
    obtain ⟨x, hx, rfl⟩ := hx
    refine ⟨x, ⟨hr, hc, hx, fun r' c' z hn hr' hc' hz => ?_⟩, rfl⟩
    exact hf.le_iff_le.1 (hall r' c' (f z) hn hr' hc' (by rw [at_map, hz]; rfl))
  · rintro ⟨x, ⟨hr, hc, hx, hall⟩, rfl⟩
    refine ⟨hr, hc, by rw [at_map, hx]; rfl, fun r' c' z hn hr' hc' hz => ?_⟩
    rw [at_map, Option.map_eq_some_iff] at hz
    obtain ⟨z, hz, rfl⟩ := hz
    exact hf.le_iff_le.2 (hall r' c' z hn hr' hc' hz)

theorem bottomInside_map {im : Img K} {f : K → K} (hf : StrictMono f) {r c : Nat} {y : K} :
    BottomInside (im.map f) r c y ↔ ∃ x, BottomInside im r c x ∧ f x = y := by
  constructor
  · rintro ⟨hr, hc, hx, hall⟩
    rw [at_map, Option.map_eq_some_iff] at hx
    obtain ⟨x, hx, rfl⟩ := hx
    refine ⟨x, ⟨hr, hc, hx, fun r' c' z hn hr' hc' hz => ?_⟩, rfl⟩
    exact hf.le_iff_le.1 (hall r' c' (f z) hn hr' hc' (by rw [at_map, hz]; rfl))
  · rintro ⟨x, ⟨hr, hc, hx, hall⟩, rfl⟩
    refine ⟨hr, hc, by rw [at_map, hx]; rfl, fun r' c' z hn hr' hc' hz => ?_⟩
    rw [at_map, Option.map_eq_some_iff] at hz
    obtain ⟨z, hz, rfl⟩ := hz
    exact hf.le_iff_le.2 (hall r' c' z hn hr' hc' hz)

theorem _root_.PyEMD.Img.Spec.EqualPeaks.map {im : Img K} {lo hi : K} (h : EqualPeaks im lo hi) {f : K → K} (hf : StrictMono f) :
    EqualPeaks (im.map f) (f lo) (f hi) where
  wf := map_wf f h.wf
  tops := by
    intro r c y hy
    obtain ⟨x, hx, rfl⟩ := (topInside_map hf).1 hy
    rw [h.tops r c x hx]
  bottoms := by
    intro r c y hy
    obtain ⟨x, hx, rfl⟩ := (bottomInside_map hf).1 hy
    rw [h.bottoms r c x hx]
  manyTops := by
    obtain ⟨ps, hd, hl, hall⟩ := h.manyTops
    refine ⟨ps, hd, hl, fun p hp => ?_⟩
    obtain ⟨hi, x, hx⟩ := hall p hp
    exact ⟨hi, f x, (topInside_map hf).2 ⟨x, hx, rfl⟩⟩
  manyBottoms := by
    obtain ⟨ps, hd, hl, hall⟩ := h.manyBottoms
    refine ⟨ps, hd, hl, fun p hp => ?_⟩
    obtain ⟨hi, x, hx⟩ := hall p hp
    exact ⟨hi, f x, (bottomInside_map hf).2 ⟨x, hx, rfl⟩⟩

theorem level_at {R C : Nat} {v y : K} {r c : Nat} (h : at? (level R C v) r c = some y) : y = v := by
  unfold at? level at h
  exact List.eq_of_mem_replicate (List.mem_of_getElem? h)

theorem level_peaks {im : Img K} {lo hi : K} (h : EqualPeaks im lo hi) (v : K) : EqualPeaks (level im.rows im.cols v) v v where
  wf := (level_shape _ _ v).wf
  tops := fun r c x hx => level_at hx.2.2.1
  bottoms := fun r c x hx => level_at hx.2.2.1
  manyTops := by
    obtain ⟨ps, hd, hl, hall⟩ := h.manyTops
    refine ⟨ps, hd, hl, fun p hp => ⟨(hall p hp).1, v, ?_⟩⟩
    have := (hall p hp).1
    unfold Interior at this
    have hr : p.1 < (level im.rows im.cols v).rows := by show p.1 < im.rows; omega
    have hc : p.2 < (level im.rows im.cols v).cols := by show p.2 < im.cols; omega
    have hat := at_some _ (level_shape im.rows im.cols v).wf p.1 p.2 hr hc
    exact ⟨hr, hc, by rw [hat, level_at hat], fun r' c' y _ _ _ hy => (level_at hy).le⟩
  manyBottoms := by
    obtain ⟨ps, hd, hl, hall⟩ := h.manyTops
    refine ⟨ps, hd, hl, fun p hp => ⟨(hall p hp).1, v, ?_⟩⟩
    have := (hall p hp).1
    unfold Interior at this
    have hr : p.1 < (level im.rows im.cols v).rows := by show p.1 < im.rows; omega
    have hc : p.2 < (level im.rows im.cols v).cols := by show p.2 < im.cols; omega
    have hat := at_some _ (level_shape im.rows im.cols v).wf p.1 p.2 hr hc
    exact ⟨hr, hc, by rw [hat, level_at hat], fun r' c' y _ _ _ hy => (level_at hy).ge⟩

/-! ## Sifting -/

theorem sub_strictMono (d : K) : StrictMono (fun x : K => x - d) := fun a b h => sub_lt_sub_right h d

theorem map_map (im : Img K) (f g : K → K) : (im.map f).map g = im.map (fun x => g (f x)) := by
  unfold Img.map
  simp

/-- One iteration. -/
theorem sift_step {sbs : Surface K} (hs : KeepsLevel sbs) (cfg : Cfg2 K) (k n nH : Nat) (im : Img K) (lo hi d : K) (h : EqualPeaks im lo hi) :
    sift sbs cfg (k + 1) n nH im (level im.rows im.cols d) = .ok (im.map (fun x => x - (hi + lo) / 2), true) ∨
    ∃ nH', sift sbs cfg (k + 1) n nH im (level im.rows im.cols d) =
      sift sbs cfg k (n + 1) nH' (im.map (fun x => x - (hi + lo) / 2)) (level im.rows im.cols ((hi + lo) / 2 - d)) := by
  have hI : HasShape im im.rows im.cols := ⟨h.wf, rfl, rfl⟩
  obtain ⟨mn, mx, he, h1, h2⟩ := findExtrema_peaks h
  have hx := extract_peaks hs (h.map (sub_strictMono d))
  have e1 : (im.map (fun x => x - d)).rows = im.rows := rfl
  have e2 : (im.map (fun x => x - d)).cols = im.cols := rfl
  rw [e1, e2] at hx
  have hm : ((level im.rows im.cols (lo - d)).add (level im.rows im.cols (hi - d))).map (fun x => lit (1 / 2) * x) =
      level im.rows im.cols ((hi + lo) / 2 - d) := by
    rw [level_add, level_map]
    congr 1
    rw [lit_eq]
    push_cast
    ring
  have hi' : (im.map (fun x => x - d)).sub (level im.rows im.cols ((hi + lo) / 2 - d)) = im.map (fun x => x - (hi + lo) / 2) := by
    rw [sub_level (hI.map _), map_map]
    congr 1
    funext x
    ring
  simp only [sift, he, bind, Except.bind]
  rw [if_pos ⟨h1, h2⟩, sub_level hI, hx]
  simp only [hm, hi']
  split
  · split
    · exact Or.inl rfl
    · exact Or.inr ⟨_, rfl⟩
  · split
    · split
      · exact Or.inr ⟨_, rfl⟩
      · generalize (if checkProtoImf cfg (im.map (fun x => x - (hi + lo) / 2)) (im.map (fun x => x - d)) (level im.rows im.cols ((hi + lo) / 2 - d)) = true
          then nH + 1 else 0) = q
        split
        · exact Or.inl rfl
        · exact Or.inr ⟨_, rfl⟩
    · split
      · exact Or.inl rfl
      · exact Or.inr ⟨_, rfl⟩

/-- However often it is sifted, what comes out is the image without the level half way between tops and bottoms. -/
theorem sift_peaks {sbs : Surface K} (hs : KeepsLevel sbs) (cfg : Cfg2 K) : ∀ (k n nH : Nat) (im : Img K) (lo hi d : K), EqualPeaks im lo hi →
    sift sbs cfg (k + 1) n nH im (level im.rows im.cols d) = .ok (im.map (fun x => x - (hi + lo) / 2), true) := by
  intro k
  induction k with
  | zero =>
    intro n nH im lo hi d h
    rcases sift_step hs cfg 0 n nH im lo hi d h with h | ⟨q, h⟩
    · exact h
    · rw [h]; rfl
  | succ k ih =>
    intro n nH im lo hi d h
    rcases sift_step hs cfg (k + 1) n nH im lo hi d h with g | ⟨q, g⟩
    · exact g
    · rw [g]
      have := ih (n + 1) q (im.map (fun x => x - (hi + lo) / 2)) _ _ ((hi + lo) / 2 - d) (h.map (sub_strictMono _))
      have e : (hi - (hi + lo) / 2 + (lo - (hi + lo) / 2)) / 2 = 0 := by ring
      rw [e, map_map] at this
      simp only [sub_zero] at this
      exact this

theorem zeros_level (R C : Nat) : (Img.zeros R C : Img K) = level R C 0 := by
  unfold Img.zeros level vzeros
  rw [lit_zero]

theorem sum_first {w : Img K} {R C : Nat} (hw : HasShape w R C) (j : Nat) : Img.sum R C (w :: List.replicate j (level R C 0)) = w := by
  have hl := hw.length
  have h0 : ∀ (j : Nat) (x : List K), x.length = R * C → List.foldl vadd x (List.replicate j (List.replicate (R * C) 0)) = x := by
    intro j
    induction j with
    | zero => intro x _; rfl
    | succ j ih =>
      intro x hx
      rw [List.replicate_succ, List.foldl_cons]
      have : vadd x (List.replicate (R * C) 0) = x := by
        unfold vadd
        apply List.ext_getElem
        · simp [hx]
        · intro i h1 h2; simp
      rw [this]
      exact ih x hx
  have h1 : vadd (vzeros (R * C)) w.data = w.data := by
    unfold vadd vzeros
    apply List.ext_getElem
    · simp [hl]
    · intro i h1 h2; simp [lit_zero]
  unfold Img.sum sumRows
  rw [List.map_cons, List.foldl_cons, h1, List.map_replicate]
  show ({ rows := R, cols := C, data := List.foldl vadd w.data (List.replicate j (List.replicate (R * C) 0)) } : Img K) = w
  rw [h0 j _ hl, ← hw.rows_eq, ← hw.cols_eq]

theorem sum_none (R C : Nat) : (Img.sum R C [] : Img K) = level R C 0 := by
  unfold Img.sum sumRows level vzeros
  simp [lit_zero]

/-- The first component. -/
def pattern (image_s : Img K) : Img K := image_s.map (fun x => x - 1 / 2)

/-- A round after the first finds nothing. -/
theorem later_rounds {sbs : Surface K} (hs : KeepsLevel sbs) (cfg : Cfg2 K) (hM : 1 ≤ cfg.MAX_ITERATION) {image ims : Img K}
    (hr : ims.rows = image.rows) (hc : ims.cols = image.cols) (hp : EqualPeaks ims 0 1) (hne : image.allclose (1 / 100000) (pattern ims) = false) (mi : Int) :
    ∀ (fuel j : Nat),
      ((mi ≤ 0 ∨ (j + 1 + fuel : Int) < mi) → loop sbs cfg image ims mi fuel (pattern ims :: List.replicate j (level image.rows image.cols 0)) = .error .outOfFuel) ∧
      ((j + 2 : Int) ≤ mi → mi ≤ j + 1 + fuel →
        loop sbs cfg image ims mi fuel (pattern ims :: List.replicate j (level image.rows image.cols 0)) =
          .ok (pattern ims :: List.replicate (mi - 1).toNat (level image.rows image.cols 0))) := by
  have hS : HasShape ims image.rows image.cols := ⟨hp.wf, hr, hc⟩
  obtain ⟨q, hq⟩ : ∃ q, cfg.MAX_ITERATION = q + 1 := ⟨cfg.MAX_ITERATION - 1, by omega⟩
  have hround : ∀ j, sift sbs cfg cfg.MAX_ITERATION 0 0 (ims.sub (Img.sum image.rows image.cols (pattern ims :: List.replicate j (level image.rows image.cols 0))))
      (Img.zeros image.rows image.cols) = .ok (level image.rows image.cols 0, true) := by
    intro j
    have hres : ims.sub (pattern ims) = level image.rows image.cols (1 / 2 : K) := by
      have hl := hS.length
      unfold Img.sub pattern Img.map level vsub
      rw [hr, hc]
      congr 1
      apply List.ext_getElem
      · simp [hl]
      · intro i h1 h2; simp
    rw [sum_first (w := pattern ims) (hS.map _), hres, zeros_level, hq]
    have := sift_peaks hs cfg q 0 0 _ _ _ 0 (level_peaks hp (1 / 2))
    rw [hr, hc] at this
    have e1 : (level image.rows image.cols (1 / 2 : K)).rows = image.rows := rfl
    have e2 : (level image.rows image.cols (1 / 2 : K)).cols = image.cols := rfl
    rw [e1, e2, level_map] at this
    rw [this]
    norm_num
  have happ : ∀ j, (pattern ims :: List.replicate j (level image.rows image.cols (0 : K))) ++ [level image.rows image.cols 0] =
      pattern ims :: List.replicate (j + 1) (level image.rows image.cols 0) := by
    intro j
    rw [List.cons_append, List.replicate_succ']
  have hend : ∀ j, endCondition image (pattern ims :: List.replicate j (level image.rows image.cols 0)) = false := by
    intro j
    unfold endCondition
    rw [sum_first (w := pattern ims) (hS.map _)]
    exact hne
  intro fuel
  induction fuel with
  | zero =>
    intro j
    exact ⟨fun _ => rfl, fun h1 h2 => by omega⟩
  | succ fuel ih =>
    intro j
    simp only [loop, hround, bind, Except.bind, happ, hend]
    simp only [Bool.false_eq_true, false_or, if_true, List.length_cons, List.length_replicate]
    constructor
    · intro h
      rw [if_neg (by push_cast at *; omega)]
      exact (ih (j + 1)).1 (by push_cast at *; omega)
    · intro h1 h2
      by_cases hstop : mi ≤ j + 2
      · rw [if_pos (by push_cast; omega)]
        have : (mi - 1).toNat = j + 1 := by omega
        rw [this]
      · rw [if_neg (by push_cast; omega)]
        exact (ih (j + 1)).2 (by push_cast; omega) (by push_cast at *; omega)

theorem loop_peaks {sbs : Surface K} (hs : KeepsLevel sbs) (cfg : Cfg2 K) (hM : 1 ≤ cfg.MAX_ITERATION) {image ims : Img K}
    (hr : ims.rows = image.rows) (hc : ims.cols = image.cols) (hp : EqualPeaks ims 0 1) (mi : Int) (fuel : Nat) :
    (image.allclose (1 / 100000) (pattern ims) = true ∨ mi = 1 → loop sbs cfg image ims mi (fuel + 1) [] = .ok [pattern ims]) ∧
    (image.allclose (1 / 100000) (pattern ims) = false → mi ≤ 0 → loop sbs cfg image ims mi (fuel + 1) [] = .error .outOfFuel) ∧
    (image.allclose (1 / 100000) (pattern ims) = false → 1 ≤ mi → mi ≤ fuel + 1 →
      loop sbs cfg image ims mi (fuel + 1) [] = .ok (pattern ims :: List.replicate (mi - 1).toNat (level image.rows image.cols 0))) := by
  have hS : HasShape ims image.rows image.cols := ⟨hp.wf, hr, hc⟩
  obtain ⟨q, hq⟩ : ∃ q, cfg.MAX_ITERATION = q + 1 := ⟨cfg.MAX_ITERATION - 1, by omega⟩
  have hround : sift sbs cfg cfg.MAX_ITERATION 0 0 (ims.sub (Img.sum image.rows image.cols [])) (Img.zeros image.rows image.cols) = .ok (pattern ims, true) := by
    have h0 : ims.map (fun y => y - 0) = ims := by unfold Img.map; simp
    rw [sum_none, sub_level hS, h0, zeros_level, hq]
    have := sift_peaks hs cfg q 0 0 ims 0 1 0 hp
    rw [hr, hc] at this
    rw [this, pattern]
    norm_num
  have hend : endCondition image [pattern ims] = image.allclose (1 / 100000) (pattern ims) := by
    unfold endCondition
    have := sum_first (w := pattern ims) (hS.map _) 0
    rw [List.replicate_zero] at this
    rw [this]
  simp only [loop, hround, bind, Except.bind, List.nil_append, hend]
  simp only [if_true, List.length_cons, List.length_nil]
  refine ⟨fun h => ?_, fun h hm => ?_, fun h h1 h2 => ?_⟩
  · rw [if_pos (by
      rcases h with h | h
      · exact Or.inl h
      · right; omega)]
  · rw [if_neg (by
      rintro (g | g)
      · rw [h] at g; cases g
      · omega)]
    exact ((later_rounds hs cfg hM hr hc hp h mi fuel 0).1 (Or.inl hm))
  · by_cases hm : mi = 1
    · subst hm
      rw [if_pos (Or.inr (by simp))]
      rfl
    · rw [if_neg (by
        rintro (g | g)
        · rw [h] at g; cases g
        · omega)]
      exact (later_rounds hs cfg hM hr hc hp h mi fuel 0).2 (by push_cast; omega) (by push_cast; omega)

/-- Tops are the largest values of the image, bottoms the smallest. -/
theorem peaks_range {im : Img K} {lo hi : K} (h : EqualPeaks im lo hi) : npMinE im.data = .ok lo ∧ npMaxE im.data = .ok hi := by
  have hI : HasShape im im.rows im.cols := ⟨h.wf, rfl, rfl⟩
  obtain ⟨hr, hc⟩ := peaks_pos h
  have hne : im.data ≠ [] := by
    intro e
    have := hI.length
    rw [e] at this
    have : 0 < im.rows * im.cols := Nat.mul_pos hr hc
    simp at *
    omega
  obtain ⟨a1, a2⟩ := npMin_spec hne
  obtain ⟨b1, b2⟩ := npMax_spec hne
  have pos : ∀ v ∈ im.data, ∃ r c, r < im.rows ∧ c < im.cols ∧ at? im r c = some v := by
    intro v hv
    rw [data_eq hI] at hv
    obtain ⟨p, hp, rfl⟩ := List.mem_map.1 hv
    obtain ⟨g1, g2⟩ := mem_grid.1 hp
    exact ⟨p.1, p.2, g1, g2, at_some im h.wf _ _ g1 g2⟩
  have mem : ∀ r c v, at? im r c = some v → v ∈ im.data := fun r c v hv => List.mem_of_getElem? hv
  constructor
  · obtain ⟨r, c, g1, g2, g3⟩ := pos _ a1
    have := h.bottoms r c _ ⟨g1, g2, g3, fun r' c' y _ _ _ hy => a2 y (mem _ _ _ hy)⟩
    unfold npMinE
    rw [if_neg (by simpa using hne), this]
  · obtain ⟨r, c, g1, g2, g3⟩ := pos _ b1
    have := h.tops r c _ ⟨g1, g2, g3, fun r' c' y _ _ _ hy => b2 y (mem _ _ _ hy)⟩
    unfold npMaxE
    rw [if_neg (by simpa using hne), this]

theorem addLast_append (o : K) (l : List (Img K)) (x : Img K) : addLast o (l ++ [x]) = l ++ [x.map (fun v => v + o)] := by
  induction l with
  | nil => rfl
  | cons a l ih =>
    cases l with
    | nil => rfl
    | cons b l =>
      rw [List.cons_append, List.cons_append] at *
      rw [addLast, ih]
      · rfl
      · simp

/-- The image scaled to values between 0 and 1, less one half. -/
def centred (lo hi : K) (image : Img K) : Img K := image.map (fun x => (x - lo) / (hi - lo) - 1 / 2)

theorem emd_peaks {sbs : Surface K} (hs : KeepsLevel sbs) (cfg : Cfg2 K) (hM : 1 ≤ cfg.MAX_ITERATION) {image : Img K} {lo hi : K} (hlt : lo < hi)
    (h : EqualPeaks image lo hi) (mi : Int) (fuel : Nat) :
    (image.allclose (1 / 100000) (centred lo hi image) = true ∨ mi = 1 → emd sbs (fuel + 1) cfg image mi =
      .ok [image.map (fun x => x - (hi + lo) / 2), level image.rows image.cols ((hi + lo) / 2)]) ∧
    (image.allclose (1 / 100000) (centred lo hi image) = false → mi ≤ 0 → emd sbs (fuel + 1) cfg image mi = .error .outOfFuel) ∧
    (image.allclose (1 / 100000) (centred lo hi image) = false → 1 ≤ mi → mi ≤ fuel + 1 → emd sbs (fuel + 1) cfg image mi =
      .ok (image.map (fun x => x - (hi + lo) / 2) :: List.replicate (mi - 1).toNat (level image.rows image.cols 0) ++
        [level image.rows image.cols ((hi + lo) / 2)])) := by
  have hd : 0 < hi - lo := sub_pos.2 hlt
  have hmono : StrictMono (fun x : K => (x - lo) / (hi - lo)) := fun a b hab => div_lt_div_of_pos_right (sub_lt_sub_right hab lo) hd
  have hp := h.map hmono
  simp only [sub_self, zero_div, div_self hd.ne'] at hp
  obtain ⟨p1, p2⟩ := peaks_range h
  have hpat : pattern (image.map (fun x => (x - lo) / (hi - lo))) = centred lo hi image := map_map _ _ _
  obtain ⟨q1, q2, q3⟩ := loop_peaks (image := image) (ims := image.map (fun x => (x - lo) / (hi - lo))) hs cfg hM rfl rfl hp mi fuel
  rw [hpat] at q1 q2 q3
  have hS : HasShape (image.map (fun x => (x - lo) / (hi - lo))) image.rows image.cols := ⟨hp.wf, rfl, rfl⟩
  have hC : HasShape (centred lo hi image) image.rows image.cols := HasShape.map _ ⟨h.wf, rfl, rfl⟩
  have hres : (image.map (fun x => (x - lo) / (hi - lo))).sub (centred lo hi image) = level image.rows image.cols (1 / 2 : K) := by
    have hl := hS.length
    unfold Img.sub centred Img.map level vsub
    congr 1
    apply List.ext_getElem
    · simpa [Img.map] using hl
    · intro i h1 h2; simp
  have hnz : allclose0 (level image.rows image.cols (1 / 2 : K)).data = false := by
    rw [Bool.eq_false_iff]
    intro hv
    have hv' := (EMD.allclose0_iff _).1 hv
    obtain ⟨r1, r2⟩ := peaks_pos h
    have : (1 / 2 : K) ∈ (level image.rows image.cols (1 / 2 : K)).data :=
      List.mem_replicate.2 ⟨(Nat.mul_pos r1 r2).ne', rfl⟩
    have := hv' _ this
    rw [pyAbs_eq, lit_eq, abs_of_pos (by norm_num)] at this
    norm_num at this
  have back1 : (centred lo hi image).map (fun x => x * (hi - lo)) = image.map (fun x => x - (hi + lo) / 2) := by
    unfold centred
    rw [map_map]
    congr 1
    funext x
    rw [sub_mul, div_mul_cancel₀ _ hd.ne']
    ring
  have fin : ∀ j, loop sbs cfg image (image.map (fun x => (x - lo) / (hi - lo))) mi (fuel + 1) [] =
      .ok (centred lo hi image :: List.replicate j (level image.rows image.cols 0)) → emd sbs (fuel + 1) cfg image mi =
        .ok (image.map (fun x => x - (hi + lo) / 2) :: List.replicate j (level image.rows image.cols 0) ++ [level image.rows image.cols ((hi + lo) / 2)]) := by
    intro j hj
    unfold emd
    simp only [p1, p2, bind, Except.bind, pure, Except.pure]
    rw [if_neg (by simpa [lit_zero] using hd.ne'), hj]
    simp only [sum_first hC, hres, hnz, Bool.false_eq_true, if_false]
    rw [List.map_append, List.map_cons, List.map_replicate, List.map_singleton, back1, level_map, level_map, addLast_append, level_map, zero_mul]
    congr 4
    ring
  refine ⟨fun g => ?_, fun g hm => ?_, fun g h1 h2 => fin _ (q3 g h1 h2)⟩
  · exact fin 0 (q1 g)
  · unfold emd
    simp only [p1, p2, bind, Except.bind, pure, Except.pure]
    rw [if_neg (by simpa [lit_zero] using hd.ne'), q2 g hm]

/-- The comparison of the unscaled image with the scaled components fails, unless the image happens to lie between -1/2 and 1/2. -/
theorem not_close {image : Img K} {lo hi : K} (hlt : lo < hi) (h : EqualPeaks image lo hi) (hz : 1 / 100000 ≤ |lo + 1 / 2| ∨ 1 / 100000 ≤ |hi - 1 / 2|) :
    image.allclose (1 / 100000) (centred lo hi image) = false := by
  have hd : 0 < hi - lo := sub_pos.2 hlt
  rw [Bool.eq_false_iff]
  intro hv
  unfold Img.allclose at hv
  rw [List.all_eq_true] at hv
  have key : ∀ v ∈ image.data, |v - ((v - lo) / (hi - lo) - 1 / 2)| ≤ 1 / 100000000 + 1 / 100000 * |(v - lo) / (hi - lo) - 1 / 2| := by
    intro v hv'
    obtain ⟨i, hi', rfl⟩ := List.getElem_of_mem hv'
    have := hv (image.data[i], (image.data[i] - lo) / (hi - lo) - 1 / 2) (by
      rw [List.mem_iff_getElem]
      refine ⟨i, by simpa [centred, Img.map] using hi', ?_⟩
      simp [centred, Img.map])
    simp only [decide_eq_true_eq, pyAbs_eq, lit_eq] at this
    push_cast at this
    exact this
  have half : |(1 : K) / 2| = 1 / 2 := abs_of_pos (by norm_num)
  rcases hz with hz | hz
  · obtain ⟨ps, -, hl, hall⟩ := h.manyBottoms
    obtain ⟨p, hp⟩ := List.exists_mem_of_length_pos (show 0 < ps.length by omega)
    obtain ⟨-, x, hx⟩ := hall p hp
    have hx' := h.bottoms _ _ _ hx
    subst hx'
    have := key _ (List.mem_of_getElem? hx.2.2.1)
    rw [sub_self, zero_div, zero_sub, sub_neg_eq_add, abs_neg, half] at this
    have e : (1 : K) / 100000000 + 1 / 100000 * (1 / 2) < 1 / 100000 := by norm_num
    linarith
  · obtain ⟨ps, -, hl, hall⟩ := h.manyTops
    obtain ⟨p, hp⟩ := List.exists_mem_of_length_pos (show 0 < ps.length by omega)
    obtain ⟨-, x, hx⟩ := hall p hp
    have hx' := h.tops _ _ _ hx
    subst hx'
    have := key _ (List.mem_of_getElem? hx.2.2.1)
    rw [div_self hd.ne', show (1 : K) - 1 / 2 = 1 / 2 by norm_num, half] at this
    have e : (1 : K) / 100000000 + 1 / 100000 * (1 / 2) < 1 / 100000 := by norm_num
    linarith

/-- **C167, what holds: with `max_imf=1`.**  An image whose tops are all equally bright and whose bottoms are all equally dark is separated into the
pattern around zero and the brightness half way between them, for every setting. -/
theorem C167_pattern_partial (sbs : Surface K) (hs : KeepsLevel sbs) (cfg : Cfg2 K) (hM : 1 ≤ cfg.MAX_ITERATION) (image : Img K) (lo hi : K) (hlt : lo < hi)
    (h : EqualPeaks image lo hi) (fuel : Nat) (hf : 1 ≤ fuel) :
    emd sbs fuel cfg image 1 = .ok [image.map (fun x => x - (hi + lo) / 2), level image.rows image.cols ((hi + lo) / 2)] := by
  obtain ⟨k, rfl⟩ : ∃ k, fuel = k + 1 := ⟨fuel - 1, by omega⟩
  exact (emd_peaks hs cfg hM hlt h 1 k).1 (Or.inr rfl)

/-- **C167, larger limits.**  `max_imf=k` gives the same two images with `k - 1` black ones in between. -/
theorem C167_limit (sbs : Surface K) (hs : KeepsLevel sbs) (cfg : Cfg2 K) (hM : 1 ≤ cfg.MAX_ITERATION) (image : Img K) (lo hi : K) (hlt : lo < hi)
    (h : EqualPeaks image lo hi) (hz : 1 / 100000 ≤ |lo + 1 / 2| ∨ 1 / 100000 ≤ |hi - 1 / 2|) (k fuel : Nat) (hf : k + 1 ≤ fuel) :
    emd sbs fuel cfg image (k + 1) = .ok (image.map (fun x => x - (hi + lo) / 2) :: List.replicate k (level image.rows image.cols 0) ++
      [level image.rows image.cols ((hi + lo) / 2)]) := by
  obtain ⟨n, rfl⟩ : ∃ n, fuel = n + 1 := ⟨fuel - 1, by omega⟩
  have := (emd_peaks hs cfg hM hlt h (k + 1) n).2.2 (not_close hlt h hz) (by omega) (by omega)
  simpa using this

/-- **C167, violated without a limit.**  The rest is level: every pixel of it counts as a top and as a bottom, so a further component is taken off, which
is zero, for ever. -/
theorem C167_forever (sbs : Surface K) (hs : KeepsLevel sbs) (cfg : Cfg2 K) (hM : 1 ≤ cfg.MAX_ITERATION) (image : Img K) (lo hi : K) (hlt : lo < hi)
    (h : EqualPeaks image lo hi) (hz : 1 / 100000 ≤ |lo + 1 / 2| ∨ 1 / 100000 ≤ |hi - 1 / 2|) (maxImf : Int) (hm : maxImf ≤ 0) (fuel : Nat) :
    emd sbs fuel cfg image maxImf = .error .outOfFuel := by
  cases fuel with
  | zero =>
    obtain ⟨p1, p2⟩ := peaks_range h
    unfold emd
    simp only [p1, p2, bind, Except.bind, pure, Except.pure]
    rw [if_neg (by simpa [lit_zero] using (sub_pos.2 hlt).ne')]
    rfl
  | succ n => exact (emd_peaks hs cfg hM hlt h maxImf n).2.1 (not_close hlt h hz) hm

/-! ## Examples -/

/-- The mean of the values, from sixteen points on. -/
def levelSurface : Surface ℚ := fun X _ Z => if X.length < 16 then .error .valueError else .ok (fun _ _ => Z.sum / Z.length)

theorem levelSurface_keeps : KeepsLevel levelSurface := by
  intro X Y Z v hX _ hZ hall
  unfold levelSurface
  rw [if_neg (by omega)]
  refine ⟨_, rfl, fun _ _ => ?_⟩
  rw [List.eq_replicate_iff.2 ⟨rfl, hall⟩]
  have : (Z.length : ℚ) ≠ 0 := by
    have : 0 < Z.length := by omega
    exact_mod_cast this.ne'
  simp
  field_simp

/-- A chessboard with bright fields `hi` and dark fields `lo`. -/
def chess (R C : Nat) (lo hi : K) : Img K := Img.ofFn R C (fun r c => if (r + c) % 2 = 0 then hi else lo)

theorem chess_at {R C : Nat} (lo hi : K) {r c : Nat} (hr : r < R) (hc : c < C) : at? (chess R C lo hi) r c = some (if (r + c) % 2 = 0 then hi else lo) :=
  ofFn_at R C _ r c hr hc

theorem chess_top {R C : Nat} {lo hi : K} (hlt : lo < hi) {r c : Nat} (hr : r < R) (hc : c < C) (he : (r + c) % 2 = 0) :
    TopInside (chess R C lo hi) r c hi := by
  refine ⟨hr, hc, by rw [chess_at lo hi hr hc, if_pos he], fun r' c' y _ hr' hc' hy => ?_⟩
  have hr2 : r' < R := hr'
  have hc2 : c' < C := hc'
  rw [chess_at lo hi hr2 hc2] at hy
  injection hy with hy
  rw [← hy]
  split
  · exact le_rfl
  · exact hlt.le

theorem chess_bottom {R C : Nat} {lo hi : K} (hlt : lo < hi) {r c : Nat} (hr : r < R) (hc : c < C) (he : (r + c) % 2 ≠ 0) :
    BottomInside (chess R C lo hi) r c lo := by
  refine ⟨hr, hc, by rw [chess_at lo hi hr hc, if_neg he], fun r' c' y _ hr' hc' hy => ?_⟩
  have hr2 : r' < R := hr'
  have hc2 : c' < C := hc'
  rw [chess_at lo hi hr2 hc2] at hy
  injection hy with hy
  rw [← hy]
  split
  · exact hlt.le
  · exact le_rfl

/-- Every chessboard with at least four rows and seven columns has equal peaks. -/
theorem chess_peaks {R C : Nat} (hR : 4 ≤ R) (hC : 7 ≤ C) {lo hi : K} (hlt : lo < hi) : EqualPeaks (chess R C lo hi) lo hi where
  wf := ofFn_wf _ _ _
  tops := by
    rintro r c x ⟨hr, hc, hx, hall⟩
    have hr2 : r < R := hr
    have hc2 : c < C := hc
    rw [chess_at lo hi hr2 hc2] at hx
    injection hx with hx
    by_contra hne
    have hodd : (r + c) % 2 ≠ 0 := by
      intro h
      rw [if_pos h] at hx
      exact hne hx.symm
    rw [if_neg hodd] at hx
    obtain ⟨c', h1, h2, h3, h4⟩ : ∃ c', c' < C ∧ c' ≤ c + 1 ∧ c ≤ c' + 1 ∧ (r + c') % 2 = 0 := by
      by_cases h : c + 1 < C
      · exact ⟨c + 1, h, by omega, by omega, by omega⟩
      · exact ⟨c - 1, by omega, by omega, by omega, by omega⟩
    have := hall r c' hi ⟨by omega, by omega, h2, h3⟩ hr h1 (by rw [chess_at lo hi hr2 h1, if_pos h4])
    rw [← hx] at this
    exact absurd hlt (not_lt.2 this)
  bottoms := by
    rintro r c x ⟨hr, hc, hx, hall⟩
    have hr2 : r < R := hr
    have hc2 : c < C := hc
    rw [chess_at lo hi hr2 hc2] at hx
    injection hx with hx
    by_contra hne
    have heven : (r + c) % 2 = 0 := by
      by_contra h
      rw [if_neg h] at hx
      exact hne hx.symm
    rw [if_pos heven] at hx
    obtain ⟨c', h1, h2, h3, h4⟩ : ∃ c', c' < C ∧ c' ≤ c + 1 ∧ c ≤ c' + 1 ∧ (r + c') % 2 ≠ 0 := by
      by_cases h : c + 1 < C
      · exact ⟨c + 1, h, by omega, by omega, by omega⟩
      · exact ⟨c - 1, by omega, by omega, by omega, by omega⟩
    have := hall r c' lo ⟨by omega, by omega, h2, h3⟩ hr h1 (by rw [chess_at lo hi hr2 h1, if_neg h4])
    rw [← hx] at this
    exact absurd hlt (not_lt.2 this)
  manyTops := by
    refine ⟨[(1, 1), (1, 3), (1, 5), (2, 2), (2, 4)], by decide, by decide, ?_⟩
    intro p hp
    have hp' : p.1 + 1 < R ∧ p.2 + 1 < C ∧ 0 < p.1 ∧ 0 < p.2 ∧ (p.1 + p.2) % 2 = 0 := by
      simp only [List.mem_cons, List.not_mem_nil, or_false] at hp
      rcases hp with rfl | rfl | rfl | rfl | rfl <;> refine ⟨?_, ?_, ?_, ?_, ?_⟩ <;> omega
    exact ⟨⟨hp'.2.2.1, hp'.1, hp'.2.2.2.1, hp'.2.1⟩, hi, chess_top hlt (by omega) (by omega) hp'.2.2.2.2⟩
  manyBottoms := by
    refine ⟨[(1, 2), (1, 4), (2, 1), (2, 3), (2, 5)], by decide, by decide, ?_⟩
    intro p hp
    have hp' : p.1 + 1 < R ∧ p.2 + 1 < C ∧ 0 < p.1 ∧ 0 < p.2 ∧ (p.1 + p.2) % 2 = 1 := by
      simp only [List.mem_cons, List.not_mem_nil, or_false] at hp
      rcases hp with rfl | rfl | rfl | rfl | rfl <;> refine ⟨?_, ?_, ?_, ?_, ?_⟩ <;> omega
    exact ⟨⟨hp'.2.2.1, hp'.1, hp'.2.2.2.1, hp'.2.1⟩, lo, chess_bottom hlt (by omega) (by omega) (by omega)⟩

/-- **C167, violated for every chessboard** (an image of grey values, from black to `hi`): without `max_imf` the default `EMD2D` does not return. -/
theorem C167_chessboard (sbs : Surface K) (hs : KeepsLevel sbs) (R C : Nat) (hR : 4 ≤ R) (hC : 7 ≤ C) (lo hi : K) (h0 : 0 ≤ lo) (hlt : lo < hi) (fuel : Nat) :
    emd sbs fuel Cfg.default (chess R C lo hi) (-1) = .error .outOfFuel :=
  C167_forever sbs hs Cfg.default (by simp [Cfg.default]) _ lo hi hlt (chess_peaks hR hC hlt) (Or.inl (by
    rw [abs_of_pos (by linarith)]
    have : (1 : K) / 100000 ≤ 1 / 2 := by norm_num
    linarith)) (-1) (by decide) fuel

example : emd levelSurface 1000000 Cfg.default (chess 8 8 0 255) (-1) = .error .outOfFuel :=
  C167_chessboard levelSurface levelSurface_keeps 8 8 (by decide) (by decide) 0 255 le_rfl (by decide) 1000000

example := C167_pattern_partial levelSurface levelSurface_keeps Cfg.default (by decide) _ 0 255 (by decide) (chess_peaks (R := 8) (C := 8) (by decide) (by decide) (by decide)) 1 le_rfl

example := C167_limit levelSurface levelSurface_keeps { Cfg.default with FIXE := 3 } (by decide) _ 0 255 (by decide)
  (chess_peaks (R := 8) (C := 8) (by decide) (by decide) (by decide)) (Or.inl (by norm_num)) 4 5 le_rfl

/-- The model computes it, too. -/
example : okWith (fun out => decide (out = [(chess 4 7 (0 : ℚ) 8).map (fun x => x - 4), level 4 7 0, level 4 7 4]))
    (emd levelSurface 2 Cfg.default (chess 4 7 (0 : ℚ) 8) 2) = true := by decide +kernel

end EMD2D
end PyEMD
