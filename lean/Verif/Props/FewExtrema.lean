import Verif.Props.MatlabWave
import Verif.Props.ImageWave
import Verif.Spec.TurnsOnce

/-!
# C168: signals and images with too few extrema are returned as they are
-/

set_option linter.unusedSectionVars false

namespace PyEMD

variable {K : Type} [Field K] [LinearOrder K] [IsStrictOrderedRing K] [FloorRing K]

namespace EMD2D
open Img Img.Spec

theorem inside_top {im : Img K} {r c : Nat} (hi : Interior im.rows im.cols r c) (h : TopAmongNeighbours im r c) : ∃ x, TopInside im r c x := by
  obtain ⟨x, hx, hall⟩ := h
  unfold Interior at hi
  exact ⟨x, by omega, by omega, hx, fun r' c' y hn _ _ hy => hall r' c' y hn hy⟩

theorem inside_bottom {im : Img K} {r c : Nat} (hi : Interior im.rows im.cols r c) (h : BottomAmongNeighbours im r c) : ∃ x, BottomInside im r c x := by
  obtain ⟨x, hx, hall⟩ := h
  unfold Interior at hi
  exact ⟨x, by omega, by omega, hx, fun r' c' y hn _ _ hy => hall r' c' y hn hy⟩

theorem few_map {im : Img K} (h : Few im) {f : K → K} (hf : StrictMono f) : Few (im.map f) := by
  rcases h with h | h
  · left
    intro ps hd hall
    refine h ps hd (fun p hp => ?_)
    obtain ⟨hi, y, hy⟩ := hall p hp
    obtain ⟨x, hx, -⟩ := (topInside_map hf).1 hy
    exact ⟨hi, x, hx⟩
  · right
    intro ps hd hall
    refine h ps hd (fun p hp => ?_)
    obtain ⟨hi, y, hy⟩ := hall p hp
    obtain ⟨x, hx, -⟩ := (bottomInside_map hf).1 hy
    exact ⟨hi, x, hx⟩

theorem findExtrema_few {im : Img K} (hw : WF im) (h : Few im) {mn mx : List (Nat × Nat)} (he : findExtrema im = .ok (mn, mx)) :
    ¬(4 < mn.length ∧ 4 < mx.length) := by
  obtain ⟨m1, m2⟩ := C50_find_extrema im hw mn mx he
  obtain ⟨d1, d2⟩ := findExtrema_nodup he
  rcases h with h | h
  · have := h mx d2 (fun p hp => by
      obtain ⟨hi, ht⟩ := (m1 p.1 p.2).1 hp
      exact ⟨hi, inside_top hi ht⟩)
    omega
  · have := h mn d1 (fun p hp => by
      obtain ⟨hi, ht⟩ := (m2 p.1 p.2).1 hp
      exact ⟨hi, inside_bottom hi ht⟩)
    omega

/-- **C168 (EMD2D).**  An image that has at most four tops or at most four bottoms inside comes back as its only component. -/
theorem C168_image (sbs : Surface K) (cfg : Cfg2 K) (hM : 1 ≤ cfg.MAX_ITERATION) (image : Img K) (hw : WF image) (x y : K) (hx : x ∈ image.data)
    (hy : y ∈ image.data) (hxy : x < y) (h : Few image) (mi : Int) (fuel : Nat) (hf : 1 ≤ fuel) :
    emd sbs fuel cfg image mi = .ok [image] := by
  have hne : image.data ≠ [] := List.ne_nil_of_mem hx
  have hI : HasShape image image.rows image.cols := ⟨hw, rfl, rfl⟩
  have hrc : 0 < image.rows ∧ 0 < image.cols := by
    have hl := hI.length
    have : 0 < image.data.length := List.length_pos_of_mem hx
    rw [hl] at this
    exact ⟨Nat.pos_of_mul_pos_right this, Nat.pos_of_mul_pos_left this⟩
  obtain ⟨a1, a2⟩ := npMin_spec hne
  obtain ⟨b1, b2⟩ := npMax_spec hne
  have hd : 0 < npMax image.data - npMin image.data := by
    have := a2 x hx
    have := b2 y hy
    linarith
  have p1 : npMinE image.data = .ok (npMin image.data) := by
    unfold npMinE
    rw [if_neg (by simpa using hne)]
  have p2 : npMaxE image.data = .ok (npMax image.data) := by
    unfold npMaxE
    rw [if_neg (by simpa using hne)]
  generalize npMin image.data = lo at *
  generalize npMax image.data = hi at *
  have hmono : StrictMono (fun x : K => (x - lo) / (hi - lo)) := fun a b hab => div_lt_div_of_pos_right (sub_lt_sub_right hab lo) hd
  have hS : HasShape (image.map (fun x => (x - lo) / (hi - lo))) image.rows image.cols := hI.map _
  have hfew := few_map h hmono
  have hback : ((image.map (fun x => (x - lo) / (hi - lo))).map (fun x => x * (hi - lo))).map (fun v => v + lo) = image := by
    rw [map_map, map_map]
    have : (fun x : K => (x - lo) / (hi - lo) * (hi - lo) + lo) = fun x => x := by
      funext x
      rw [div_mul_cancel₀ _ hd.ne']
      ring
    rw [this]
    unfold Img.map
    simp
  generalize hims : image.map (fun x => (x - lo) / (hi - lo)) = ims at *
  obtain ⟨⟨mn, mx⟩, he⟩ := findExtrema_total ims (by rw [hS.rows_eq]; exact hrc.1) (by rw [hS.cols_eq]; exact hrc.2)
  have hc := findExtrema_few hS.wf hfew he
  obtain ⟨q, hq⟩ : ∃ q, cfg.MAX_ITERATION = q + 1 := ⟨cfg.MAX_ITERATION - 1, by omega⟩
  obtain ⟨f, rfl⟩ : ∃ f, fuel = f + 1 := ⟨fuel - 1, by omega⟩
  have h0 : ims.sub (Img.sum image.rows image.cols []) = ims := by
    rw [sum_none, sub_level hS]
    unfold Img.map
    simp
  have hsum : Img.sum image.rows image.cols [ims] = ims := by
    have := sum_first hS 0
    rwa [List.replicate_zero] at this
  have hloop : loop sbs cfg image ims mi (f + 1) [] = .ok [ims] := by
    simp only [loop, h0, hq, sift, he, bind, Except.bind]
    rw [if_neg hc]
    simp
  have hz : allclose0 (ims.sub ims).data = true := by
    rw [EMD.allclose0_iff]
    intro v hv
    have : v = 0 := by
      unfold Img.sub vsub at hv
      rw [List.zipWith_self] at hv
      obtain ⟨w, -, rfl⟩ := List.mem_map.1 hv
      exact sub_self w
    rw [this, pyAbs_eq, abs_zero, lit_eq]
    norm_num
  unfold emd
  simp only [p1, p2, bind, Except.bind, pure, Except.pure]
  rw [if_neg (by simpa [lit_zero] using hd.ne')]
  simp only [hims, hloop, hsum, hz, if_true, List.map_singleton]
  have := addLast_append lo [] (ims.map (fun x => x * (hi - lo)))
  rw [List.nil_append] at this
  rw [this, hback]
  rfl

/-- **C168 (EMD2D, rows that rise).**  An image that grows along its rows inside, such as a ramp, is returned as it is. -/
theorem C168_ramp (sbs : Surface K) (cfg : Cfg2 K) (hM : 1 ≤ cfg.MAX_ITERATION) (image : Img K) (hw : WF image) (hc : 2 ≤ image.cols) (hr : 1 ≤ image.rows)
    (h : ∀ r c x y, r < image.rows → c + 1 < image.cols → at? image r c = some x → at? image r (c + 1) = some y → x < y) (mi : Int) (fuel : Nat)
    (hf : 1 ≤ fuel) : emd sbs fuel cfg image mi = .ok [image] := by
  have ex : ∀ r c, r < image.rows → c < image.cols → ∃ x, at? image r c = some x := fun r c g1 g2 => ⟨_, at_some image hw r c g1 g2⟩
  obtain ⟨x, hx⟩ := ex 0 0 (by omega) (by omega)
  obtain ⟨y, hy⟩ := ex 0 1 (by omega) (by omega)
  refine C168_image sbs cfg hM image hw x y (List.mem_of_getElem? hx) (List.mem_of_getElem? hy) (h 0 0 x y (by omega) (by omega) hx hy) (Or.inl ?_) mi fuel hf
  intro ps _ hall
  rw [show ps = [] from ?_]
  · simp
  · rw [List.eq_nil_iff_forall_not_mem]
    intro p hp
    obtain ⟨⟨i1, i2, i3, i4⟩, x, t1, t2, t3, t4⟩ := hall p hp
    obtain ⟨y, hy⟩ := ex p.1 (p.2 + 1) (by omega) (by omega)
    have := h p.1 p.2 x y t1 i4 t3 hy
    have := t4 p.1 (p.2 + 1) y (by unfold Near; omega) t1 i4 hy
    exact absurd this (not_le.2 ‹x < y›)

/-- One peak in the middle of nine pixels. -/
example : emd levelSurface 1 Cfg.default (⟨3, 3, [0, 1, 0, 1, 5, 1, 0, 1, 0]⟩ : Img ℚ) (-1) = .ok [⟨3, 3, [0, 1, 0, 1, 5, 1, 0, 1, 0]⟩] :=
  C168_image levelSurface Cfg.default (by decide) _ (by simp [WF]) 0 5 (by simp) (by simp) (by norm_num)
    (Or.inl (fun ps hd hall => by
      have : ps ⊆ [(1, 1)] := fun p hp => by
        obtain ⟨⟨i1, i2, i3, i4⟩, -⟩ := hall p hp
        simp only at i2 i4
        rw [List.mem_singleton, Prod.ext_iff]
        constructor <;> simp only <;> omega
      have := (hd.subperm this).length_le
      simp at this
      omega)) (-1) 1 le_rfl

/-- A ramp of two rows. -/
example : emd levelSurface 1 Cfg.default (⟨2, 3, [0, 1, 4, 2, 3, 9]⟩ : Img ℚ) 3 = .ok [⟨2, 3, [0, 1, 4, 2, 3, 9]⟩] :=
  C168_ramp levelSurface Cfg.default (by decide) _ (by simp [WF]) (by decide) (by decide) (by
    intro r c x y hr hc hx hy
    simp only at hr hc
    interval_cases r <;> (have hc' : c = 0 ∨ c = 1 := by omega) <;> rcases hc' with rfl | rfl <;> simp [at?] at hx hy <;> subst hx <;> subst hy <;> norm_num) 3 1 le_rfl

end EMD2D

namespace Matlab
open EMD (timeArr sAt reported isPos isNeg dAt Block)
open EMD.Spec PyEMD.Spec

theorem top_bottom_steps {S : List K} {m m' : Nat} {P Q P' Q' : K → Bool} (hQ : ∀ x, Q x = true → Q' x = false) (hQ' : Q' 0 = false)
    (h : Block P Q S m) (h' : Block P' Q' S m') (hlt : m < m') :
    ∃ r r', r < r' ∧ r' + 1 < S.length ∧ Q (dAt S r) = true ∧ Q' (dAt S r') = true := by
  obtain ⟨l, r, rfl, a1, a2, a3, a4, a5, -⟩ := h
  obtain ⟨l', r', rfl, b1, b2, b3, b4, b5, -⟩ := h'
  have c1 := roundHalf_mem a1
  have c2 := roundHalf_mem b1
  refine ⟨r, r', ?_, b3, a5, b5⟩
  by_contra hn
  rcases Nat.lt_or_ge r' r with g | g
  · rw [a4 r' (by omega) g, hQ'] at b5
    exact absurd b5 (by simp)
  · have : r' = r := by omega
    subst this
    rw [hQ _ a5] at b5
    exact absurd b5 (by simp)

theorem short_sorted {l : List Nat} (hs : l.Pairwise (· < ·)) (h : ∀ a ∈ l, ∀ b ∈ l, ¬a < b) : l.length ≤ 1 := by
  match l with
  | [] => simp
  | [a] => simp
  | a :: b :: t =>
    rw [List.pairwise_cons] at hs
    exact absurd (hs.1 b (by simp)) (h a (by simp) b (by simp))

theorem few_turns {S : List K} (h : TurnsOnce S) : (reported isPos isNeg S).length ≤ 1 ∧ (minima S).length ≤ 1 := by
  have hmx : ∀ {m}, m ∈ reported isPos isNeg S → Block isPos isNeg S m := fun h => EMD.reported_block EMD.isPos_zero EMD.isNeg_zero h
  have step : ∀ i, i + 1 < S.length → ∃ x y, S[i]? = some x ∧ S[i + 1]? = some y ∧ dAt S i = y - x := by
    intro i hi
    refine ⟨S[i], S[i + 1], List.getElem?_eq_getElem (by omega), List.getElem?_eq_getElem hi, ?_⟩
    rw [EMD.dAt_eq hi]
    simp [sAt, List.getD_eq_getElem?_getD, List.getElem?_eq_getElem hi, List.getElem?_eq_getElem (show i < S.length by omega)]
  have s1 := (EMD.reported_spec (K := K) isPos isNeg EMD.isPos_zero EMD.isNeg_zero S).1
  have s2 := (minima_spec S).1
  have order : (∀ m ∈ reported isPos isNeg S, ∀ m' ∈ minima S, ¬m < m') ∨ ∀ m ∈ reported isPos isNeg S, ∀ m' ∈ minima S, ¬m' < m := by
    obtain ⟨p, h | h⟩ := h
    · left
      intro m hm m' hm' hlt
      obtain ⟨r, r', g1, g2, g3, g4⟩ := top_bottom_steps (fun x hx => by
        rw [← Bool.not_eq_true]; exact fun h' => EMD.pos_neg_disjoint x h' hx) EMD.isPos_zero (hmx hm) (minima_block hm') hlt
      obtain ⟨x, y, e1, e2, e3⟩ := step r (by omega)
      obtain ⟨x', y', e1', e2', e3'⟩ := step r' g2
      simp only [isNeg, isPos, decide_eq_true_eq, e3, e3', sub_neg, sub_pos] at g3 g4
      have k1 := h r x y e1 e2
      have k2 := h r' x' y' e1' e2'
      by_cases hp : r < p
      · exact absurd (k1.1 hp) (not_le.2 g3)
      · exact absurd (k2.2 (by omega)) (not_le.2 g4)
    · right
      intro m hm m' hm' hlt
      obtain ⟨r, r', g1, g2, g3, g4⟩ := top_bottom_steps (fun x hx => by
        rw [← Bool.not_eq_true]; exact fun h' => EMD.pos_neg_disjoint x hx h') EMD.isNeg_zero (minima_block hm') (hmx hm) hlt
      obtain ⟨x, y, e1, e2, e3⟩ := step r (by omega)
      obtain ⟨x', y', e1', e2', e3'⟩ := step r' g2
      simp only [isNeg, isPos, decide_eq_true_eq, e3, e3', sub_neg, sub_pos] at g3 g4
      have k1 := h r x y e1 e2
      have k2 := h r' x' y' e1' e2'
      by_cases hp : r < p
      · exact absurd (k1.1 hp) (not_le.2 g3)
      · exact absurd (k2.2 (by omega)) (not_le.2 g4)
  constructor
  · refine short_sorted s1 (fun a ha b hb hab => ?_)
    obtain ⟨c, hc, c1, c2⟩ := minima_between ha hb hab
    rcases order with o | o
    · exact o a ha c hc c1
    · exact o b hb c hc c2
  · refine short_sorted s2 (fun a ha b hb hab => ?_)
    obtain ⟨c, hc, c1, c2⟩ := maxima_between ha hb hab
    rcases order with o | o
    · exact o c hc b hb c2
    · exact o c hc a ha c1

theorem finish_one (S : List K) (st : State K) (h : st.IMF = [(0, S)]) (hn : st.imfNo = 1) :
    ∃ R, finish S (lit 1) st = .ok R ∧ R.imfNo = 1 ∧ R.IMF = [(0, S)] := by
  have hres : vsub S (sumRows S.length [S]) = vzeros S.length := by
    unfold sumRows
    apply List.ext_getElem
    · simp [vsub, vadd, vzeros]
    · intro i g1 g2
      simp [vsub, vadd, vzeros, lit_zero]
  have hs : ¬(lit (1 / 10000000000) : K) < npSum ((vzeros S.length : List K).map pyAbs) := by
    have : npSum ((vzeros S.length : List K).map pyAbs) = 0 := by
      rw [npSum_eq]
      simp [vzeros, lit_zero, pyAbs_eq]
    rw [this, lit_eq, not_lt]
    norm_num
  have hg : dictGets st.IMF (List.range st.imfNo) = .ok [S] := by
    rw [h, hn]
    rfl
  unfold finish
  rw [hg]
  simp only [EMD.ok_bind]
  rw [if_pos (by simp)]
  refine ⟨_, rfl, ?_, ?_⟩
  · simp only [hres, hs, decide_false, Bool.false_eq_true, if_false, hn]
  · simp only [hres, hs, decide_false, Bool.false_eq_true, if_false, h]
    simp [lit_one]

theorem few_ext (fuel : Nat) (hf : 1 ≤ fuel) (sp : SciPy K) (cfg : Cfg K) (hM : 1 ≤ cfg.MAX_ITERATION) (S : List K) (T : Option (List K))
    (hl : (timeOf S T).length = S.length) (mi : Int) {e z : Int} (hc : countExt (timeOf S T) S = .ok (e, z)) (he : ¬e > 2) :
    ∃ R, emd fuel sp cfg S T mi = .ok R ∧ R.imfNo = 1 ∧ R.IMF = [(0, S)] := by
  have hS : S.map (fun x => x / (lit 1 : K)) = S := by simp [lit_one]
  unfold emd
  simp only [hS]
  unfold timeOf at hl hc
  generalize T.getD ((List.range S.length).map (fun k : Nat => (lit (k : ℚ) : K))) = T at *
  have hsift : ∃ s', siftLoop sp cfg T (cfg.MAX_ITERATION.toNat + 1) { n := 0, nh := 0, extNo := 0, imf := S, mean := vzeros S.length } =
      .ok (s', .trend) ∧ s'.imf = S := by
    rw [siftLoop, if_pos (by simp; omega)]
    unfold siftBody
    simp only [hc, EMD.ok_bind, if_neg he]
    exact ⟨_, rfl, rfl⟩
  obtain ⟨s', h1, h2⟩ := hsift
  have hv : vsub S (vzeros S.length) = S := EMD.vsub_vzeros (by intro x; simp [lit_zero]) S
  have hl1 : (vzeros S.length : List K).length = S.length := by simp [vzeros]
  obtain ⟨k, rfl⟩ : ∃ k, fuel = k + 1 := ⟨fuel - 1, by omega⟩
  rw [if_neg (by rw [hl]; simp)]
  rw [emdLoop]
  unfold emdRound
  simp only [hl1, hv, h1, EMD.ok_bind, h2, pure, Except.pure]
  simp only [ne_eq, not_true_eq_false, if_false, EMD.ok_bind, beq_self_eq_true, Bool.true_or, if_true]
  exact finish_one S _ rfl rfl

theorem timeOf_length {S : List K} {T : Option (List K)} (hT : ∀ T', T = some T' → T'.length = S.length) : (timeOf S T).length = S.length := by
  unfold timeOf
  cases T with
  | none => simp
  | some T' => exact hT T' rfl

/-- **C168 (EMD_matlab).**  A signal that turns at most once is returned as its only row: whatever the settings, the spline routine and the positions. -/
theorem C168_signal (fuel : Nat) (hf : 1 ≤ fuel) (sp : SciPy K) (cfg : Cfg K) (hM : 1 ≤ cfg.MAX_ITERATION) (S : List K) (T : Option (List K))
    (hT : ∀ T', T = some T' → T'.length = S.length) (h : TurnsOnce S) (mi : Int) :
    ∃ R, emd fuel sp cfg S T mi = .ok R ∧ R.imfNo = 1 ∧ R.IMF = [(0, S)] := by
  obtain ⟨n1, n2⟩ := few_turns h
  have hl := timeOf_length hT
  have hcount : ∃ e z, countExt (timeOf S T) S = .ok (e, z) ∧ ¬e > 2 := by
    unfold countExt
    rw [findExtrema_all _ S hl]
    refine ⟨_, _, rfl, ?_⟩
    simp only [List.length_map]
    omega
  obtain ⟨e, z, hc, he⟩ := hcount
  exact few_ext fuel hf sp cfg hM S T hl mi hc he

/-- **C168 (the trend of EMD_matlab).**  The last row of an unlimited decomposition cannot be decomposed any further: given to `emd` again, with any
settings, spline routine and limit, it comes back alone. -/
theorem C168_trend_again {fuel : Nat} {sp : SciPy K} {cfg : Cfg K} {S : List K} {T : Option (List K)} (hT : ∀ T', T = some T' → T'.length = S.length)
    {mi : Int} (hmi : mi ≤ 1) {R : Result K} (h : emd fuel sp cfg S T mi = .ok R) :
    ∃ trend, (R.IMF.map (·.2)).getLast? = some trend ∧
      ∀ (fuel' : Nat) (sp' : SciPy K) (cfg' : Cfg K) (mi' : Int), 1 ≤ fuel' → 1 ≤ cfg'.MAX_ITERATION →
        ∃ R', emd fuel' sp' cfg' trend T mi' = .ok R' ∧ R'.IMF = [(0, trend)] := by
  obtain ⟨rows, trend, e1, hres, ⟨E, hE, he⟩, -⟩ := C71_trend hmi h
  refine ⟨trend, by rw [e1, List.getLast?_concat], fun fuel' sp' cfg' mi' hf hM => ?_⟩
  have hlen : trend.length = S.length := hres.1
  have htime : timeOf trend T = timeOf S T := by
    unfold timeOf
    rw [hlen]
  have hc : countExt (timeOf trend T) trend = .ok ((E.minPos.length : Int) + (E.maxPos.length : Int), (E.indzer.length : Int)) := by
    unfold countExt
    rw [htime, hE]
    rfl
  obtain ⟨R', r1, -, r2⟩ := few_ext fuel' hf sp' cfg' hM trend T (by rw [htime, hlen]; exact timeOf_length hT) mi' hc (by omega)
  exact ⟨R', r1, r2⟩

/-- The trend of a zigzag, decomposed again. -/
example : okWith (fun R : Result ℚ => decide (2 ≤ R.IMF.length)) (emd 9 EMD.Spec.strictLinSciPy (Cfg.default : Cfg ℚ) [0, 2, 0, 2, 0] none (-1)) = true := by
  decide +kernel

/-- Up and down, with a flat top and flat ends. -/
example := C168_signal 1 le_rfl EMD.Spec.strictLinSciPy (Cfg.default : Cfg ℚ) (by decide) [0, 0, 2, 3, 3, 1, 1] (some [0, 1, 2, 3, 4, 5, 7]) (by rintro _ ⟨⟩; rfl)
  ⟨3, Or.inl (by
    intro i x y hx hy
    have hi : i < 6 := by
      have := (List.getElem?_eq_some_iff.1 hy).1
      simp at this
      omega
    interval_cases i <;> simp at hx hy <;> subst hx <;> subst hy <;> norm_num)⟩ (-1)

/-- A signal that turns twice or more may be decomposed: the limit is not far off. -/
example : okWith (fun R : Result ℚ => decide (R.IMF ≠ [(0, [0, 2, 0, 2, 0])])) (emd 9 EMD.Spec.strictLinSciPy (Cfg.default : Cfg ℚ) [0, 2, 0, 2, 0] none (-1)) = true := by
  decide +kernel

end Matlab

end PyEMD
