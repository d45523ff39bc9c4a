import Verif.Lemmas.Image
import Verif.Spec.Samples
import Verif.Spec.ImageSamples
import Mathlib.Tactic.IntervalCases

/-!
# C47 – C50: decomposition of images
-/

set_option linter.unusedSectionVars false

namespace PyEMD

open Img Img.Spec CEEMDAN

section Gen
variable {α : Type} [Add α] [Sub α] [Mul α] [Div α] [Neg α] [LT α] [LE α] [BEq α]
  [DecidableLT α] [DecidableLE α] [NpScalar α]

theorem mirrored_lt (n i : Nat) (h : i < n * 3) : mirrored n i < n := by
  unfold mirrored
  split_ifs <;> omega

theorem mirrored_eq (n i : Nat) (h : i < n * 3) : mirrored n i = if i / n = 1 then i % n else n - 1 - i % n := by
  have hn : 0 < n := by omega
  have e := Nat.div_add_mod i n
  have h1 : i % n < n := Nat.mod_lt _ hn
  have hq : i / n < 3 := Nat.div_lt_of_lt_mul (by omega)
  unfold mirrored
  generalize i / n = q at *
  generalize i % n = m at *
  have hc : q = 0 ∨ q = 1 ∨ q = 2 := by omega
  rcases hc with rfl | rfl | rfl <;> split_ifs <;> first | omega | contradiction

/-- **C47** `prepare_image` triples the image in both directions and shows at `[r, c]` the pixel of the original at the mirrored
coordinates. -/
theorem EMD2D.C47_mirrored (im : Img α) (hw : WF im) :
    (EMD2D.prepareImage im).rows = 3 * im.rows ∧ (EMD2D.prepareImage im).cols = 3 * im.cols ∧ WF (EMD2D.prepareImage im) ∧
    ∀ r < 3 * im.rows, ∀ c < 3 * im.cols,
      at? (EMD2D.prepareImage im) r c = at? im (mirrored im.rows r) (mirrored im.cols c) := by
  refine ⟨by simp [EMD2D.prepareImage, ofFn]; omega, by simp [EMD2D.prepareImage, ofFn]; omega, ofFn_wf _ _ _, ?_⟩
  intro r hr c hc
  have hr1 := mirrored_lt im.rows r (by omega)
  have hc1 := mirrored_lt im.cols c (by omega)
  rw [at_some im hw _ _ hr1 hc1]
  unfold EMD2D.prepareImage
  rw [ofFn_at _ _ _ _ _ (by omega) (by omega)]
  congr 1
  have hR : 0 < im.rows := by omega
  have hC : 0 < im.cols := by omega
  have hi : r % im.rows < im.rows := Nat.mod_lt _ hR
  have hj : c % im.cols < im.cols := Nat.mod_lt _ hC
  have er := Nat.div_add_mod r im.rows
  have ec := Nat.div_add_mod c im.cols
  have hr3 : r / im.rows < 3 := Nat.div_lt_of_lt_mul (by omega)
  have hc3 : c / im.cols < 3 := Nat.div_lt_of_lt_mul (by omega)
  have lr : ∀ i j, i < im.rows → j < im.cols → im.fliplr.px i j = im.px i (im.cols - 1 - j) :=
    fun i j h1 h2 => ofFn_px _ _ _ _ _ h1 h2
  have ud : ∀ i j, i < im.rows → j < im.cols → im.flipud.px i j = im.px (im.rows - 1 - i) j :=
    fun i j h1 h2 => ofFn_px _ _ _ _ _ h1 h2
  have udlr : ∀ i j, i < im.rows → j < im.cols → im.fliplr.flipud.px i j = im.px (im.rows - 1 - i) (im.cols - 1 - j) := by
    intro i j h1 h2
    rw [show im.fliplr.flipud.px i j = im.fliplr.px (im.rows - 1 - i) j from ofFn_px _ _ _ _ _ h1 h2, lr _ _ (by omega) h2]
  have lrud : ∀ i j, i < im.rows → j < im.cols → im.flipud.fliplr.px i j = im.px (im.rows - 1 - i) (im.cols - 1 - j) := by
    intro i j h1 h2
    rw [show im.flipud.fliplr.px i j = im.flipud.px i (im.cols - 1 - j) from ofFn_px _ _ _ _ _ h1 h2, ud _ _ h1 (by omega)]
  have mr := mirrored_eq im.rows r (by omega)
  have mc := mirrored_eq im.cols c (by omega)
  rw [mr, mc]
  generalize r / im.rows = q at *
  generalize c / im.cols = q' at *
  interval_cases q <;> interval_cases q' <;> simp [lr, ud, udlr, lrud, hi, hj]

example : (EMD2D.prepareImage { rows := 2, cols := 2, data := [1, 2, 3, 4] } : Img ℚ) =
    { rows := 6, cols := 6, data :=
      [4, 3, 3, 4, 4, 3,
       2, 1, 1, 2, 2, 1,
       2, 1, 1, 2, 2, 1,
       4, 3, 3, 4, 4, 3,
       4, 3, 3, 4, 4, 3,
       2, 1, 1, 2, 2, 1] } := by decide +kernel

/-- **C47** (no seams) The original is the central tile, and pixels next to each other in the big image show the same pixel or
pixels next to each other. -/
theorem EMD2D.C47_central (im : Img α) (hw : WF im) :
    (∀ r < im.rows, ∀ c < im.cols, at? (EMD2D.prepareImage im) (im.rows + r) (im.cols + c) = at? im r c) ∧
    ∀ n i, i + 1 < 3 * n → mirrored n (i + 1) ≤ mirrored n i + 1 ∧ mirrored n i ≤ mirrored n (i + 1) + 1 := by
  constructor
  · intro r hr c hc
    rw [(EMD2D.C47_mirrored im hw).2.2.2 _ (by omega) _ (by omega)]
    have h1 : mirrored im.rows (im.rows + r) = r := by unfold mirrored; split_ifs <;> omega
    have h2 : mirrored im.cols (im.cols + c) = c := by unfold mirrored; split_ifs <;> omega
    rw [h1, h2]
  · intro n i hi
    unfold mirrored
    split_ifs <;> omega

example : at? (EMD2D.prepareImage { rows := 2, cols := 3, data := [1, 2, 3, 4, 5, 6] } : Img ℚ) 3 5 = some 6 := by decide +kernel

end Gen

section Exact
variable {K : Type} [Field K] [LinearOrder K] [IsStrictOrderedRing K] [FloorRing K]

namespace EMD2D

theorem mem_peaks (rows cols : Nat) (mask : Nat → Nat → Bool) (r c : Nat) :
    (r, c) ∈ peaks rows cols mask ↔ Interior rows cols r c ∧ mask r c = true := by
  unfold peaks Interior
  simp only [List.mem_filter, List.mem_flatMap, List.mem_map, List.mem_range, Prod.mk.injEq, Bool.and_eq_true,
    Bool.not_eq_true', Bool.or_eq_false_iff, beq_eq_false_iff_ne]
  constructor
  · rintro ⟨⟨a, ha, b, hb, rfl, rfl⟩, ⟨h1, h2, h3⟩, h4, h5⟩
    exact ⟨⟨by omega, by omega, by omega, by omega⟩, h1⟩
  · rintro ⟨⟨h1, h2, h3, h4⟩, h5⟩
    exact ⟨⟨r, by omega, c, by omega, rfl, rfl⟩, ⟨h5, by omega, by omega⟩, by omega, by omega⟩

theorem isLocalMax_iff (im : Img K) (hw : WF im) (r c : Nat) (hi : Interior im.rows im.cols r c) :
    isLocalMax im r c = true ↔ TopAmongNeighbours im r c := by
  obtain ⟨h1, h2, h3, h4⟩ := hi
  have hmem : ∀ x, x ∈ window im r c ↔ ∃ r' c', Near r c r' c' ∧ at? im r' c' = some x := by
    intro x
    unfold window Near
    rw [min_eq_left (by omega), min_eq_left (by omega)]
    simp only [List.flatMap_cons, List.flatMap_nil, List.map_cons, List.map_nil, List.append_nil, List.cons_append,
      List.nil_append, List.mem_cons, List.not_mem_nil, or_false]
    constructor
    · have key : ∀ i j, r - 1 ≤ i → i ≤ r + 1 → c - 1 ≤ j → j ≤ c + 1 → x = im.px i j →
          ∃ r' c', (r' ≤ r + 1 ∧ r ≤ r' + 1 ∧ c' ≤ c + 1 ∧ c ≤ c' + 1) ∧ at? im r' c' = some x := by
        intro i j a1 a2 a3 a4 hx
        exact ⟨i, j, ⟨by omega, by omega, by omega, by omega⟩, by rw [at_some im hw i j (by omega) (by omega), hx]⟩
      rintro (h | h | h | h | h | h | h | h | h) <;> exact key _ _ (by omega) (by omega) (by omega) (by omega) h
    · rintro ⟨r', c', ⟨a1, a2, a3, a4⟩, hx⟩
      rw [at_some im hw r' c' (by omega) (by omega)] at hx
      have hx' : x = im.px r' c' := by simpa using hx.symm
      have e1 : r' = r - 1 ∨ r' = r ∨ r' = r + 1 := by omega
      have e2 : c' = c - 1 ∨ c' = c ∨ c' = c + 1 := by omega
      subst hx'
      rcases e1 with rfl | rfl | rfl <;> rcases e2 with rfl | rfl | rfl <;> simp
  have hne : window im r c ≠ [] := by simp [window]
  obtain ⟨m1, m2⟩ := npMax_spec hne
  have hp := at_some im hw r c (by omega) (by omega)
  have hin : im.px r c ∈ window im r c := (hmem _).2 ⟨r, c, by unfold Near; omega, hp⟩
  unfold isLocalMax TopAmongNeighbours
  rw [beq_iff_eq]
  constructor
  · intro h
    refine ⟨_, hp, fun r' c' y hn hy => ?_⟩
    rw [← h]
    exact m2 y ((hmem y).2 ⟨r', c', hn, hy⟩)
  · rintro ⟨x, hx, hall⟩
    rw [hp] at hx
    have hx' : im.px r c = x := by simpa using hx
    apply le_antisymm
    · obtain ⟨r', c', hn, hy⟩ := (hmem _).1 m1
      rw [hx']
      exact hall r' c' _ hn hy
    · exact m2 _ hin

theorem at_map (im : Img K) (f : K → K) (r c : Nat) : at? (im.map f) r c = (at? im r c).map f := by
  simp [at?, Img.map]

theorem top_neg (im : Img K) (r c : Nat) : TopAmongNeighbours (im.map (fun x => -x)) r c ↔ BottomAmongNeighbours im r c := by
  unfold TopAmongNeighbours BottomAmongNeighbours
  simp only [at_map, Option.map_eq_some_iff]
  constructor
  · rintro ⟨_, ⟨x, hx, rfl⟩, h⟩
    exact ⟨x, hx, fun r' c' y hn hy => by simpa using h r' c' (-y) hn ⟨y, hy, rfl⟩⟩
  · rintro ⟨x, hx, h⟩
    refine ⟨-x, ⟨x, hx, rfl⟩, ?_⟩
    rintro r' c' _ hn ⟨y, hy, rfl⟩
    simpa using h r' c' y hn hy

/-- **C50** `find_extrema` reports exactly the interior pixels that are not exceeded by (do not exceed) any of their eight
neighbours; in particular every strict interior extremum. -/
theorem C50_find_extrema (im : Img K) (hw : WF im) (mn mx : List (Nat × Nat)) (h : findExtrema im = .ok (mn, mx)) :
    (∀ r c, (r, c) ∈ mx ↔ Interior im.rows im.cols r c ∧ TopAmongNeighbours im r c) ∧
    ∀ r c, (r, c) ∈ mn ↔ Interior im.rows im.cols r c ∧ BottomAmongNeighbours im r c := by
  unfold findExtrema at h
  split at h
  · cases h
  · simp only [Except.ok.injEq, Prod.mk.injEq] at h
    obtain ⟨rfl, rfl⟩ := h
    constructor
    · intro r c
      rw [mem_peaks]
      exact and_congr_right (fun hi => isLocalMax_iff im hw r c hi)
    · intro r c
      rw [mem_peaks]
      refine and_congr_right (fun hi => ?_)
      rw [isLocalMax_iff (im.map (fun x => -x)) (map_wf _ hw) r c hi]
      exact top_neg im r c

example : findExtrema ({ rows := 4, cols := 5, data :=
    [9, 0, 0, 0, 0,
     0, 1, 0, 3, 0,
     0, 0, -1, 0, 0,
     0, 0, 0, 0, 7] } : Img ℚ) = .ok ([(2, 2)], [(1, 3)]) := by decide +kernel

/-- A flat area is reported both as minima and as maxima. -/
example : findExtrema ({ rows := 3, cols := 3, data := [2, 2, 2, 2, 2, 2, 2, 2, 2] } : Img ℚ) = .ok ([(1, 1)], [(1, 1)]) := by
  decide +kernel

theorem addLast_sum (offset : K) (l : List (Img K)) (hne : l ≠ []) (n : Nat) (hl : ∀ im ∈ l, im.data.length = n) (i : Nat) (hi : i < n) :
    ((addLast offset l).map (fun im => im.data.getD i 0)).sum = (l.map (fun im => im.data.getD i 0)).sum + offset := by
  induction l with
  | nil => exact absurd rfl hne
  | cons x xs ih =>
    match xs with
    | [] =>
      have hx : i < x.data.length := by rw [hl x (by simp)]; exact hi
      simp [addLast, Img.map, List.getD, hx]
    | y :: ys =>
      have := ih (by simp) (fun im h => hl im (List.mem_cons_of_mem _ h))
      simp only [addLast, List.map_cons, List.sum_cons] at this ⊢
      rw [this]
      ring

theorem scaled_sum (scale : K) (l : List (Img K)) (n : Nat) (hl : ∀ im ∈ l, im.data.length = n) (i : Nat) (hi : i < n) :
    ((l.map (fun im => im.map (fun x => x * scale))).map (fun im => im.data.getD i 0)).sum =
      (l.map (fun im => im.data.getD i 0)).sum * scale := by
  induction l with
  | nil => simp
  | cons x xs ih =>
    have hx : i < x.data.length := by rw [hl x (by simp)]; exact hi
    simp only [List.map_cons, List.sum_cons]
    rw [ih (fun im h => hl im (List.mem_cons_of_mem _ h)), add_mul]
    simp [Img.map, List.getD, hx]

theorem img_sum_getD (R C : Nat) (l : List (Img K)) (hl : ∀ im ∈ l, HasShape im R C) (i : Nat) (hi : i < R * C) :
    (Img.sum R C l).data.getD i 0 = (l.map (fun im => im.data.getD i 0)).sum := by
  unfold Img.sum
  rw [sumRows_getD (R * C) _ (by
    simp only [List.mem_map]
    rintro r ⟨im, him, rfl⟩
    exact (hl im him).length) i hi, List.map_map]
  rfl

/-- **C48** (EMD2D) All components have the shape of the image.  They add up to it pixel by pixel: exactly, if a residue was
appended to the components found by the loop, and up to `1e-8` of the range of the image otherwise. -/
theorem C48_adds_up (sbs : Surface K) (fuel : Nat) (cfg : Cfg2 K) (image : Img K) (maxImf : Int) (out : List (Img K))
    (hw : WF image) (h : emd sbs fuel cfg image maxImf = .ok out) :
    (∀ im ∈ out, HasShape im image.rows image.cols) ∧
    ∃ comps, loop sbs cfg image (image.map (fun x => (x - npMin image.data) / (npMax image.data - npMin image.data))) maxImf
        fuel [] = .ok comps ∧
      ((out.length = comps.length + 1 ∧
          ∀ i < image.data.length, (out.map (fun im => im.data.getD i 0)).sum = image.data.getD i 0) ∨
       (out.length = comps.length ∧ ∀ i < image.data.length,
          |image.data.getD i 0 - (out.map (fun im => im.data.getD i 0)).sum| ≤
            1 / 100000000 * (npMax image.data - npMin image.data))) := by
  have hI : HasShape image image.rows image.cols := ⟨hw, rfl, rfl⟩
  unfold emd npMinE npMaxE at h
  by_cases hem : image.data.isEmpty
  · simp [hem, bind, Except.bind] at h
  · simp only [hem, bind, Except.bind, pure, Except.pure] at h
    have hne : image.data ≠ [] := by simpa using hem
    generalize hmn : npMin image.data = mn at *
    generalize hmx : npMax image.data = mx at *
    have hmin := npMin_spec hne
    have hmax := npMax_spec hne
    rw [hmn] at hmin
    rw [hmx] at hmax
    have hle : mn ≤ mx := hmin.2 _ hmax.1
    simp only [Bool.false_eq_true, if_false] at h
    split at h
    · cases h
    · rename_i hsc
      have hsc' : mx - mn ≠ 0 := by simpa using hsc
      have hpos : 0 < mx - mn := lt_of_le_of_ne (sub_nonneg.2 hle) (Ne.symm hsc')
      generalize hims : image.map (fun x => (x - mn) / (mx - mn)) = ims at *
      have hS : HasShape ims image.rows image.cols := by rw [← hims]; exact hI.map _
      cases hl : loop sbs cfg image ims maxImf fuel [] with
      | error e => rw [hl] at h; simp at h
      | ok comps =>
        rw [hl] at h
        simp only [Except.ok.injEq] at h
        obtain ⟨hsh, hlen, -⟩ := loop_ok hI hS hl (by simp)
        have hcne : comps ≠ [] := by rintro rfl; simp at hlen
        have hsum := HasShape.sum image.rows image.cols comps hsh
        have hres := hS.sub hsum
        generalize hr : ims.sub (Img.sum image.rows image.cols comps) = res at *
        have hresi : ∀ i < image.data.length, res.data.getD i 0 =
            (image.data.getD i 0 - mn) / (mx - mn) - (comps.map (fun im => im.data.getD i 0)).sum := by
          intro i hi
          rw [← hr]
          simp only [Img.sub]
          rw [vsub_getD _ _ _ (by rw [hS.length, ← hI.length]; exact hi) (by rw [hsum.length, ← hI.length]; exact hi),
            img_sum_getD _ _ _ hsh i (by rw [← hI.length]; exact hi), ← hims]
          congr 1
          simp [Img.map, List.getD, hi]
        have fin : ∀ l : List (Img K), l ≠ [] → (∀ im ∈ l, HasShape im image.rows image.cols) → ∀ i < image.data.length,
            ((addLast mn (l.map (fun im => im.map (fun x => x * (mx - mn))))).map (fun im => im.data.getD i 0)).sum =
              (l.map (fun im => im.data.getD i 0)).sum * (mx - mn) + mn := by
          intro l hlne hlsh i hi
          rw [addLast_sum mn _ (by simpa using hlne) image.data.length (by
            simp only [List.mem_map]
            rintro _ ⟨im, him, rfl⟩
            rw [((hlsh im him).map _).length, hI.length]) i hi,
            scaled_sum _ _ image.data.length (fun im him => by rw [(hlsh im him).length, hI.length]) i hi]
        have shp : ∀ l : List (Img K), (∀ im ∈ l, HasShape im image.rows image.cols) →
            ∀ im ∈ addLast mn (l.map (fun im => im.map (fun x => x * (mx - mn)))), HasShape im image.rows image.cols := by
          intro l hlsh
          apply addLast_shape
          simp only [List.mem_map]
          rintro _ ⟨im, him, rfl⟩
          exact (hlsh im him).map _
        split at h
        · rename_i hv
          rw [← h]
          refine ⟨shp _ hsh, comps, rfl, .inr ⟨by rw [length_addLast]; simp, ?_⟩⟩
          intro i hi
          rw [fin comps hcne hsh i hi]
          have hv' := (EMD.allclose0_iff _).1 hv
          have hmem : res.data.getD i 0 ∈ res.data := by
            rw [getD_lt _ _ (by rw [hres.length, ← hI.length]; exact hi)]
            exact List.getElem_mem _
          have h1 := hv' _ hmem
          rw [pyAbs_eq, hresi i hi, lit_eq] at h1
          have e : image.data.getD i 0 - ((comps.map (fun im => im.data.getD i 0)).sum * (mx - mn) + mn) =
              ((image.data.getD i 0 - mn) / (mx - mn) - (comps.map (fun im => im.data.getD i 0)).sum) * (mx - mn) := by
            field_simp
            ring
          rw [e, abs_mul, abs_of_pos hpos]
          apply mul_le_mul_of_nonneg_right _ hpos.le
          norm_num at h1 ⊢
          exact h1
        · rw [← h]
          have hall : ∀ im ∈ comps ++ [res], HasShape im image.rows image.cols := by
            intro im him
            rcases List.mem_append.1 him with h1 | h1
            · exact hsh im h1
            · rw [List.mem_singleton.1 h1]; exact hres
          refine ⟨shp _ hall, comps, rfl, .inl ⟨by rw [length_addLast]; simp, ?_⟩⟩
          intro i hi
          rw [fin _ (by simp) hall i hi, List.map_append, List.sum_append]
          simp only [List.map_cons, List.map_nil, List.sum_cons, List.sum_nil, add_zero]
          rw [hresi i hi]
          field_simp
          ring

example : WF board ∧ okWith (fun out => decide (out.length = 3) && decide ((out.map (fun im => im.px 3 3)).sum = board.px 3 3))
    (emd flatSurface 2 Cfg.default board 2) = true := ⟨by unfold WF; decide, by decide +kernel⟩

end EMD2D

namespace BEMD

/-- **C48** (BEMD) All components have the shape of the image.  They add up to it pixel by pixel: exactly, if a residue was
appended to the components found by the loop, and up to `1e-8` otherwise. -/
theorem C48_adds_up (ext : Ext K) (fuel : Nat) (cfg : Cfg2 K) (image : Img K) (maxImf : Int) (out : List (Img K))
    (hw : WF image) (h : bemd ext fuel cfg image maxImf = .ok out) :
    (∀ im ∈ out, HasShape im image.rows image.cols) ∧
    ∃ comps, loop ext cfg image maxImf fuel [] = .ok comps ∧
      ((out.length = comps.length + 1 ∧
          ∀ i < image.data.length, (out.map (fun im => im.data.getD i 0)).sum = image.data.getD i 0) ∨
       (out.length = comps.length ∧ ∀ i < image.data.length,
          |image.data.getD i 0 - (out.map (fun im => im.data.getD i 0)).sum| ≤ 1 / 100000000)) := by
  have hI : HasShape image image.rows image.cols := ⟨hw, rfl, rfl⟩
  unfold bemd at h
  simp only [bind_eq_ok, pure_eq_ok] at h
  obtain ⟨comps, hl, h⟩ := h
  obtain ⟨hsh, hlen, -⟩ := loop_ok hI hl (by simp)
  have hsum := HasShape.sum image.rows image.cols comps hsh
  have hres := hI.sub hsum
  generalize hr : image.sub (Img.sum image.rows image.cols comps) = res at *
  have hresi : ∀ i < image.data.length, res.data.getD i 0 =
      image.data.getD i 0 - (comps.map (fun im => im.data.getD i 0)).sum := by
    intro i hi
    rw [← hr]
    simp only [Img.sub]
    rw [vsub_getD _ _ _ hi (by rw [hsum.length, ← hI.length]; exact hi),
      EMD2D.img_sum_getD _ _ _ hsh i (by rw [← hI.length]; exact hi)]
  split at h
  · rename_i hv
    subst h
    refine ⟨hsh, comps, hl, .inr ⟨rfl, ?_⟩⟩
    intro i hi
    have hv' := (EMD.allclose0_iff _).1 hv
    have hmem : res.data.getD i 0 ∈ res.data := by
      rw [getD_lt _ _ (by rw [hres.length, ← hI.length]; exact hi)]
      exact List.getElem_mem _
    have h1 := hv' _ hmem
    rw [pyAbs_eq, hresi i hi, lit_eq] at h1
    norm_num at h1 ⊢
    exact h1
  · subst h
    have hall : ∀ im ∈ comps ++ [res], HasShape im image.rows image.cols := by
      intro im him
      rcases List.mem_append.1 him with h1 | h1
      · exact hsh im h1
      · rw [List.mem_singleton.1 h1]; exact hres
    refine ⟨hall, comps, hl, .inl ⟨by simp, ?_⟩⟩
    intro i hi
    rw [List.map_append, List.sum_append]
    simp only [List.map_cons, List.map_nil, List.sum_cons, List.sum_nil, add_zero]
    rw [hresi i hi]
    ring

example : WF hills ∧ okWith (fun out => decide (out.length = 3) && decide ((out.map (fun im => im.px 1 2)).sum = 5))
    (bemd sampleExt 2 Cfg.default hills 2) = true := ⟨by unfold WF; decide, by decide +kernel⟩

end BEMD
end Exact
end PyEMD
