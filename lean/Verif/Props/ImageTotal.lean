import Verif.Props.ImageSmooth
import Verif.Spec.ImageSamples
import Verif.Spec.Samples

/-!
# C110: when `EMD2D` returns
-/

set_option linter.unusedSectionVars false

namespace PyEMD

/-- `SmoothBivariateSpline` needs `(3 + 1) * (3 + 1)` points. -/
def AcceptsMany {α : Type} (sbs : Surface α) : Prop :=
  ∀ X Y Z, 16 ≤ X.length → Y.length = X.length → Z.length = X.length → ∃ s, sbs X Y Z = .ok s

namespace EMD2D
open Img Img.Spec

section Gen
variable {α : Type} [Add α] [Sub α] [Mul α] [Div α] [Neg α] [LT α] [LE α] [BEq α] [DecidableLT α] [DecidableLE α] [NpScalar α]

theorem findExtrema_total (im : Img α) (hr : 0 < im.rows) (hc : 0 < im.cols) : ∃ e, findExtrema im = .ok e := by
  unfold findExtrema
  rw [if_neg (by omega)]
  exact ⟨_, rfl⟩

theorem extract_total {sbs : Surface α} (hs : ∀ X Y Z, ∃ s, sbs X Y Z = .ok s) (im : Img α) (hr : 0 < im.rows) (hc : 0 < im.cols) :
    ∃ e, extractMaxMinSpline sbs im = .ok e := by
  unfold extractMaxMinSpline splinePoints
  obtain ⟨e, he⟩ := findExtrema_total (prepareImage im) (show 0 < im.rows * 3 by omega) (show 0 < im.cols * 3 by omega)
  obtain ⟨s1, h1⟩ := hs (e.1.map (·.1)) (e.1.map (·.2)) (e.1.map (fun p => (prepareImage im).px p.1 p.2))
  obtain ⟨s2, h2⟩ := hs (e.2.map (·.1)) (e.2.map (·.2)) (e.2.map (fun p => (prepareImage im).px p.1 p.2))
  simp only [he, h1, h2, bind, Except.bind, pure, Except.pure]
  exact ⟨_, rfl⟩

theorem sift_total {sbs : Surface α} (hs : ∀ X Y Z, ∃ s, sbs X Y Z = .ok s) (cfg : Cfg2 α) (R C : Nat) (hR : 0 < R) (hC : 0 < C) :
    ∀ (k n nH : Nat) (h m : Img α), HasShape h R C → HasShape m R C → ∃ x, sift sbs cfg k n nH h m = .ok x := by
  intro k
  induction k with
  | zero => intro n nH h m _ _; exact ⟨_, rfl⟩
  | succ k ih =>
    intro n nH h m hh hm
    have h0 := hh.sub hm
    obtain ⟨p, hp⟩ := findExtrema_total h (by rw [hh.rows_eq]; exact hR) (by rw [hh.cols_eq]; exact hC)
    obtain ⟨e, he⟩ := extract_total hs (h.sub m) (by rw [h0.rows_eq]; exact hR) (by rw [h0.cols_eq]; exact hC)
    obtain ⟨h1, h2⟩ := extract_shape h0 he
    have h3 := (h1.add h2).map (fun x => lit (1 / 2) * x)
    have h4 := h0.sub h3
    simp only [sift, he, hp, bind, Except.bind]
    split
    · split
      · split
        · exact ⟨_, rfl⟩
        · exact ih _ _ _ _ h4 h3
      · split
        · split
          · exact ih _ _ _ _ h4 h3
          · split <;> split <;> first | exact ⟨_, rfl⟩ | exact ih _ _ _ _ h4 h3
        · split
          · exact ⟨_, rfl⟩
          · exact ih _ _ _ _ h4 h3
    · exact ⟨_, rfl⟩

/-- The outer loop returns if the inner one does. -/
theorem loop_total {sbs : Surface α} {cfg : Cfg2 α} {R C : Nat}
    (hsift : ∀ h, HasShape h R C → ∃ x, sift sbs cfg cfg.MAX_ITERATION 0 0 h (Img.zeros R C) = .ok x) (image ims : Img α) (hi : HasShape image R C)
    (hs : HasShape ims R C) (maxImf : Int) (hm : 0 < maxImf) : ∀ (fuel : Nat) (imfs : List (Img α)),
    (∀ im ∈ imfs, HasShape im R C) → maxImf ≤ imfs.length + fuel → 0 < fuel → ∃ out, loop sbs cfg image ims maxImf fuel imfs = .ok out := by
  intro fuel
  induction fuel with
  | zero => intro _ _ _ h0; omega
  | succ fuel ih =>
    intro imfs hall hf _
    have hsum := HasShape.sum R C imfs hall
    obtain ⟨x, hx⟩ := hsift _ (hs.sub hsum)
    have hxs := sift_shape hx (hs.sub hsum) (HasShape.zeros R C)
    simp only [loop, bind, Except.bind]
    rw [hi.rows_eq, hi.cols_eq, hx]
    simp only
    split
    · exact ⟨_, rfl⟩
    · rename_i hc
      have hlen : (imfs ++ [x.1]).length = imfs.length + 1 := by simp
      have : ¬ (maxImf ≤ ((imfs ++ [x.1]).length : Int)) := fun h' => hc (.inr ⟨hm, h'⟩)
      split
      · refine ih _ ?_ (by omega) (by omega)
        intro im him
        rcases List.mem_append.1 him with h1 | h1
        · exact hall im h1
        · rw [List.mem_singleton.1 h1]; exact hxs
      · exact ⟨_, rfl⟩

end Gen

variable {K : Type} [Field K] [LinearOrder K] [IsStrictOrderedRing K] [FloorRing K]

/-- What is left when the inner loop returns: a constant image, or rows. -/
theorem emd_total {sbs : Surface K} {cfg : Cfg2 K} {image : Img K} (hw : WF image) {x y : K} (hx : x ∈ image.data) (hy : y ∈ image.data) (hxy : x < y)
    (hsift : 0 < image.rows → 0 < image.cols → ∀ h, HasShape h image.rows image.cols →
      ∃ x, sift sbs cfg cfg.MAX_ITERATION 0 0 h (Img.zeros image.rows image.cols) = .ok x)
    (k : Nat) (hk : 1 ≤ k) (fuel : Nat) (hf : k ≤ fuel) : ∃ out, emd sbs fuel cfg image k = .ok out := by
  have hne : image.data ≠ [] := List.ne_nil_of_mem hx
  have hpos : 0 < image.rows * image.cols := by
    have := List.length_pos_of_mem hx
    unfold WF at hw
    omega
  have hd : npMax image.data - npMin image.data ≠ 0 := by
    have h1 := (npMax_spec hne).2 y hy
    have h2 := (npMin_spec hne).2 x hx
    intro h
    linarith
  have shape : HasShape image image.rows image.cols := ⟨hw, rfl, rfl⟩
  obtain ⟨out, ho⟩ := loop_total (hsift (Nat.pos_of_mul_pos_right hpos) (Nat.pos_of_mul_pos_left hpos)) image
    (image.map (fun x => (x - npMin image.data) / (npMax image.data - npMin image.data))) shape (shape.map _) k (by omega) fuel [] (by simp)
    (by simp; omega) (by omega)
  rw [emd_eq sbs fuel cfg image k hne, if_neg hd, ho]
  exact ⟨_, rfl⟩

/-- **C110, with an interpolation that accepts all points.**  `EMD2D` with `max_imf = k ≥ 1` returns for every image that is not constant, after at most
`k` rounds. -/
theorem C110_returns_partial (sbs : Surface K) (hs : ∀ X Y Z, ∃ s, sbs X Y Z = .ok s) (cfg : Cfg2 K) (image : Img K) (hw : WF image) (x y : K)
    (hx : x ∈ image.data) (hy : y ∈ image.data) (hxy : x < y) (k : Nat) (hk : 1 ≤ k) (fuel : Nat) (hf : k ≤ fuel) :
    ∃ out, emd sbs fuel cfg image k = .ok out :=
  emd_total hw hx hy hxy (fun hR hC h hh => sift_total hs cfg _ _ hR hC _ _ _ _ _ hh (HasShape.zeros _ _)) k hk fuel hf

/-- Four of the nine copies of a point. -/
theorem copies_many {im : Img K} (pos big : List (Nat × Nat)) (hd : pos.Nodup) (hin : ∀ p ∈ pos, Interior im.rows im.cols p.1 p.2)
    (hbig : ∀ p ∈ pos, ∀ R C, mirrored im.rows R = p.1 → mirrored im.cols C = p.2 → Interior (3 * im.rows) (3 * im.cols) R C → (R, C) ∈ big) :
    4 * pos.length ≤ big.length := by
  set R := im.rows
  set C := im.cols
  let f1 : Nat × Nat → Nat × Nat := fun p => (R - 1 - p.1, C - 1 - p.2)
  let f2 : Nat × Nat → Nat × Nat := fun p => (R - 1 - p.1, C + p.2)
  let f3 : Nat × Nat → Nat × Nat := fun p => (R - 1 - p.1, 3 * C - 1 - p.2)
  let f4 : Nat × Nat → Nat × Nat := fun p => (R + p.1, C + p.2)
  have inj : ∀ f : Nat × Nat → Nat × Nat, (∀ p ∈ pos, ∀ q ∈ pos, f p = f q → p = q) → (pos.map f).Nodup :=
    fun f hf => List.Nodup.map_on hf hd
  have n1 : (pos.map f1).Nodup := inj f1 (by
    intro p hp q hq h
    have := hin p hp; have := hin q hq
    unfold Interior at *
    simp only [f1, Prod.mk.injEq] at h
    ext <;> omega)
  have n2 : (pos.map f2).Nodup := inj f2 (by
    intro p hp q hq h
    have := hin p hp; have := hin q hq
    unfold Interior at *
    simp only [f2, Prod.mk.injEq] at h
    ext <;> omega)
  have n3 : (pos.map f3).Nodup := inj f3 (by
    intro p hp q hq h
    have := hin p hp; have := hin q hq
    unfold Interior at *
    simp only [f3, Prod.mk.injEq] at h
    ext <;> omega)
  have n4 : (pos.map f4).Nodup := inj f4 (by
    intro p hp q hq h
    simp only [f4, Prod.mk.injEq] at h
    ext <;> omega)
  have hnd : (pos.map f1 ++ pos.map f2 ++ (pos.map f3 ++ pos.map f4)).Nodup := by
    have disj : ∀ f g : Nat × Nat → Nat × Nat, (∀ p ∈ pos, ∀ q ∈ pos, f p ≠ g q) → ∀ a ∈ pos.map f, ∀ b ∈ pos.map g, a ≠ b := by
      intro f g h a ha b hb
      obtain ⟨p, hp, rfl⟩ := List.mem_map.1 ha
      obtain ⟨q, hq, rfl⟩ := List.mem_map.1 hb
      exact h p hp q hq
    have d12 := disj f1 f2 (by
      intro p hp q hq h
      have := hin p hp; have := hin q hq
      unfold Interior at *
      simp only [f1, f2, Prod.mk.injEq] at h
      omega)
    have d13 := disj f1 f3 (by
      intro p hp q hq h
      have := hin p hp; have := hin q hq
      unfold Interior at *
      simp only [f1, f3, Prod.mk.injEq] at h
      omega)
    have d14 := disj f1 f4 (by
      intro p hp q hq h
      have := hin p hp; have := hin q hq
      unfold Interior at *
      simp only [f1, f4, Prod.mk.injEq] at h
      omega)
    have d23 := disj f2 f3 (by
      intro p hp q hq h
      have := hin p hp; have := hin q hq
      unfold Interior at *
      simp only [f2, f3, Prod.mk.injEq] at h
      omega)
    have d24 := disj f2 f4 (by
      intro p hp q hq h
      have := hin p hp; have := hin q hq
      unfold Interior at *
      simp only [f2, f4, Prod.mk.injEq] at h
      omega)
    have d34 := disj f3 f4 (by
      intro p hp q hq h
      have := hin p hp; have := hin q hq
      unfold Interior at *
      simp only [f3, f4, Prod.mk.injEq] at h
      omega)
    rw [List.nodup_append, List.nodup_append, List.nodup_append]
    refine ⟨⟨n1, n2, d12⟩, ⟨n3, n4, d34⟩, ?_⟩
    intro a ha b hb
    rcases List.mem_append.1 ha with ha | ha <;> rcases List.mem_append.1 hb with hb | hb
    · exact d13 a ha b hb
    · exact d14 a ha b hb
    · exact d23 a ha b hb
    · exact d24 a ha b hb
  have hsub : (pos.map f1 ++ pos.map f2 ++ (pos.map f3 ++ pos.map f4)) ⊆ big := by
    intro a ha
    rw [List.mem_append, List.mem_append, List.mem_append] at ha
    rcases ha with (ha | ha) | (ha | ha) <;>
    · obtain ⟨p, hp, rfl⟩ := List.mem_map.1 ha
      have h := hin p hp
      unfold Interior at h
      refine hbig p hp _ _ ?_ ?_ ?_
      · unfold mirrored
        try dsimp only [f1, f2, f3, f4]
        split_ifs <;> omega
      · unfold mirrored
        try dsimp only [f1, f2, f3, f4]
        split_ifs <;> omega
      · unfold Interior
        try dsimp only [f1, f2, f3, f4]
        omega
  have := (List.subperm_of_subset hnd hsub).length_le
  simp only [List.length_append, List.length_map] at this
  omega

theorem findExtrema_nodup {im : Img K} {e : List (Nat × Nat) × List (Nat × Nat)} (h : findExtrema im = .ok e) : e.1.Nodup ∧ e.2.Nodup := by
  unfold findExtrema at h
  split at h
  · cases h
  · injection h with h
    rw [← h]
    exact ⟨peaks_nodup _ _ _, peaks_nodup _ _ _⟩

/-- More than four extrema of each kind inside the image are enough points for `SmoothBivariateSpline`. -/
theorem extract_many {sbs : Surface K} (hs : AcceptsMany sbs) {im : Img K} (hw : WF im) {mn mx : List (Nat × Nat)} (h : findExtrema im = .ok (mn, mx))
    (h1 : 4 < mn.length) (h2 : 4 < mx.length) : ∃ e, extractMaxMinSpline sbs im = .ok e := by
  obtain ⟨e1, e2, hwb, hb⟩ := C47_mirrored im hw
  obtain ⟨m1, m2⟩ := C50_find_extrema im hw mn mx h
  obtain ⟨d1, d2⟩ := findExtrema_nodup h
  have hrc : 0 < im.rows ∧ 0 < im.cols := by
    obtain ⟨p, hp⟩ := List.exists_mem_of_length_pos (show 0 < mx.length by omega)
    have := ((m1 p.1 p.2).1 hp).1
    unfold Interior at this
    omega
  obtain ⟨⟨bn, bx⟩, he⟩ := findExtrema_total (prepareImage im) (by rw [e1]; omega) (by rw [e2]; omega)
  obtain ⟨b1, b2⟩ := C50_find_extrema _ hwb bn bx he
  rw [e1, e2] at b1 b2
  have lx : 4 * mx.length ≤ bx.length := copies_many (im := im) mx bx d2 (fun p hp => ((m1 p.1 p.2).1 hp).1) (by
    intro p hp R C hR hC hi
    obtain ⟨hin, x, hx, hall⟩ := (m1 p.1 p.2).1 hp
    unfold Interior at hin
    exact (b1 _ _).2 ⟨hi, big_top hw ⟨by omega, by omega, hx, fun r' c' z hn _ _ hz => hall r' c' z hn hz⟩ hR hC hi⟩)
  have ln : 4 * mn.length ≤ bn.length := copies_many (im := im) mn bn d1 (fun p hp => ((m2 p.1 p.2).1 hp).1) (by
    intro p hp R C hR hC hi
    obtain ⟨hin, x, hx, hall⟩ := (m2 p.1 p.2).1 hp
    unfold Interior at hin
    exact (b2 _ _).2 ⟨hi, big_bottom hw ⟨by omega, by omega, hx, fun r' c' z hn _ _ hz => hall r' c' z hn hz⟩ hR hC hi⟩)
  obtain ⟨s1, t1⟩ := hs (bn.map (·.1)) (bn.map (·.2)) (bn.map (fun p => (prepareImage im).px p.1 p.2)) (by simp; omega) (by simp) (by simp)
  obtain ⟨s2, t2⟩ := hs (bx.map (·.1)) (bx.map (·.2)) (bx.map (fun p => (prepareImage im).px p.1 p.2)) (by simp; omega) (by simp) (by simp)
  unfold extractMaxMinSpline splinePoints
  simp only [he, t1, t2, bind, Except.bind, pure, Except.pure]
  exact ⟨_, rfl⟩

/-- **C110, with `SmoothBivariateSpline`'s demand for sixteen points.**  With one sifting per component `EMD2D` returns for every image that is not
constant: the extrema it counts have enough copies in the mirrored image. -/
theorem C110_first_partial (sbs : Surface K) (hs : AcceptsMany sbs) (cfg : Cfg2 K) (hM : cfg.MAX_ITERATION ≤ 1) (image : Img K) (hw : WF image) (x y : K)
    (hx : x ∈ image.data) (hy : y ∈ image.data) (hxy : x < y) (k : Nat) (hk : 1 ≤ k) (fuel : Nat) (hf : k ≤ fuel) :
    ∃ out, emd sbs fuel cfg image k = .ok out := by
  refine emd_total hw hx hy hxy (fun hR hC h hh => ?_) k hk fuel hf
  rcases Nat.le_one_iff_eq_zero_or_eq_one.1 hM with hM | hM
  · rw [hM]
    exact ⟨_, rfl⟩
  · rw [hM]
    obtain ⟨⟨mn, mx⟩, hp⟩ := findExtrema_total h (by rw [hh.rows_eq]; exact hR) (by rw [hh.cols_eq]; exact hC)
    simp only [sift, hp, bind, Except.bind]
    split
    · next hl =>
      rw [sub_zeros h _ _ hh]
      obtain ⟨e, he⟩ := extract_many hs hh.wf hp hl.1 hl.2
      simp only [he]
      split
      · split <;> exact ⟨_, rfl⟩
      · split
        · split
          · exact ⟨_, rfl⟩
          · split <;> split <;> exact ⟨_, rfl⟩
        · split <;> exact ⟨_, rfl⟩
    · exact ⟨_, rfl⟩

/-- Height of `studs`. -/
def stud (r c : Nat) : ℚ := if r = 1 ∧ 1 ≤ c ∧ c ≤ 10 then (c % 2 : Nat) else 1 / 2

/-- An image with five tops and five bottoms inside. -/
def studs : Img ℚ := Img.ofFn 3 12 stud

/-- A surface that accepts sixteen points and, subtracted twice from `studs`, leaves a tilted plane. -/
def tiltSurface : Surface ℚ := fun X _ _ =>
  if X.length < 16 then .error .valueError else .ok (fun x y => (stud (x - 3) (y - 12) - ((x : ℚ) + y) / 100) / 2)

theorem tiltSurface_many : AcceptsMany tiltSurface := by
  intro X Y Z h _ _
  unfold tiltSurface
  rw [if_neg (by omega)]
  exact ⟨_, rfl⟩

/-- Two siftings per component. -/
def twice : Cfg2 ℚ := { (Cfg.default : Cfg2 ℚ) with FIXE := 1 }

theorem tilt_raises : errIs .valueError (emd tiltSurface 1 twice studs 1) = true := by decide +kernel

/-- **C110, violated.**  Extrema are counted before the mean of the iteration before is subtracted a second time, so the second iteration may be left
with too few points. -/
theorem C110_counterexample : ∃ (sbs : Surface ℚ) (cfg : Cfg2 ℚ) (image : Img ℚ), AcceptsMany sbs ∧ WF image ∧ 0 ∈ image.data ∧ 1 ∈ image.data ∧
    errIs .valueError (emd sbs 1 cfg image 1) = true :=
  ⟨tiltSurface, twice, studs, tiltSurface_many, ofFn_wf _ _ _, by decide +kernel, by decide +kernel, tilt_raises⟩

/-- With one sifting the same image is decomposed. -/
example : ∃ out, emd tiltSurface 3 { (Cfg.default : Cfg2 ℚ) with MAX_ITERATION := 1 } studs 3 = .ok out :=
  C110_first_partial tiltSurface tiltSurface_many _ (le_refl _) studs (ofFn_wf _ _ _) 0 1 (by decide +kernel) (by decide +kernel) (by norm_num) 3
    (by norm_num) 3 (le_refl _)

/-- C109's hypotheses are met by a decomposition that returns. -/
example : ∃ first p, HasShape first 3 11 ∧ Bicubic (K := ℝ) p ∧
    ∀ r < 3, ∀ c < 11, ∀ x, at? combs r c = some x → at? first r c = some (x - p r c) := by
  obtain ⟨out, h⟩ := C110_returns_partial lsqSurface (fun _ _ _ => ⟨_, rfl⟩) { (Cfg.default : Cfg2 ℝ) with MAX_ITERATION := 1 } combs combs_unit.1 0 1
    (by simp [combs]) (by simp [combs]) (by norm_num) 1 (le_refl _) 1 (le_refl _)
  obtain ⟨first, p, -, h1, h2, h3⟩ := C109_component lsqSurface lsqSurface_leastSquares 1 _ rfl combs combs_unit.1 out (by exact_mod_cast h)
  exact ⟨first, p, h1, h2, h3⟩

end EMD2D
end PyEMD
