import Verif.Lemmas.IeeePoints
import Verif.Props.Points
import Verif.Props.Parabol
import Verif.Props.Float
import Verif.Props.Missing
import Verif.Spec.Samples

/-!
# Double precision (C126, C127, C128), and the contracts of C95 and C111 for it
-/

set_option linter.unusedSectionVars false

namespace PyEMD

/-! ## The contracts used elsewhere hold of IEEE 754 numbers -/

/-- C95: double precision obeys the standard model with `u = 2⁻⁵³` and `eta = 2⁻¹⁰⁷⁵`, so the bounds of `C95_emd`, `C95_eemd` and `C95_ceemdan` hold of it. -/
theorem C95_float64 : ∃ F : FloatArith F64, F.u = 1 / 2 ^ 53 ∧ F.eta = 1 / 2 ^ 1075 ∧ (∀ x, F.finite x ↔ x.isFinite = true) ∧ F.val = Ieee.val :=
  ⟨Ieee.arith (by norm_num) (by norm_num), rfl, rfl, fun _ => Iff.rfl, rfl⟩

/-- C95 for single and half precision. -/
theorem C95_float32_float16 :
    (∃ F : FloatArith F32, F.u = 1 / 2 ^ 24 ∧ F.eta = 1 / 2 ^ 150 ∧ (∀ x, F.finite x ↔ x.isFinite = true) ∧ F.val = Ieee.val) ∧
    ∃ F : FloatArith F16, F.u = 1 / 2 ^ 11 ∧ F.eta = 1 / 2 ^ 25 ∧ (∀ x, F.finite x ↔ x.isFinite = true) ∧ F.val = Ieee.val :=
  ⟨⟨Ieee.arith (by norm_num) (by norm_num), rfl, rfl, fun _ => Iff.rfl, rfl⟩,
    ⟨Ieee.arith (by norm_num) (by norm_num), rfl, rfl, fun _ => Iff.rfl, rfl⟩⟩

/-- C111: NaN of double precision is what the theorems on missing samples call a missing value. -/
theorem C111_float64 : NotANumber (Ieee.nan : F64) := Ieee.notANumber

/-- The computation succeeded with a failed computation of this kind. -/
def okErr {A : Type} (err : PyErr) (x : PyM (PyM A)) : Bool :=
  match x with
  | .ok y => errIs err y
  | .error _ => false

theorem okErr_iff {A : Type} (err : PyErr) (x : PyM (PyM A)) : okErr err x = true ↔ x = .ok (.error err) := by
  cases x with
  | error _ => simp [okErr]
  | ok y => simp [okErr, errIs_iff]

namespace Ieee
open EMD EMD.Spec
variable {f e E : ℕ}

/-! ## C126: detection -/

theorem findExtrema_val (hf : 1 ≤ f) (T S : List (Ieee f e E)) (hS : ∀ x ∈ S, x.isFinite = true) (hr : StepsResolved S)
    (hT : T.length = S.length) :
    ∃ a b, findExtrema .simple T S = .ok
        { maxPos := (reported isPos isNeg (S.map val)).map (fun i => T.getD i a), maxVal := (reported isPos isNeg (S.map val)).map (fun i => S.getD i b)
          minPos := (reported isNeg isPos (S.map val)).map (fun i => T.getD i a), minVal := (reported isNeg isPos (S.map val)).map (fun i => S.getD i b)
          indzer := zeroCrossings S } := by
  have h1 : ∀ i ∈ reported isPos isNeg (S.map val), i < S.length := fun i hi => by
    have := reported_lt isPos_zero isNeg_zero hi
    rw [List.length_map] at this
    omega
  have h2 : ∀ i ∈ reported isNeg isPos (S.map val), i < S.length := fun i hi => by
    have := reported_lt isNeg_zero isPos_zero hi
    rw [List.length_map] at this
    omega
  refine ⟨nan, nan, ?_⟩
  show findExtremaSimple T S = _
  unfold findExtremaSimple
  rw [extremaIdx_val hf S hS hr, EMD.extremaIdx_eq]
  dsimp only
  simp only [bind, Except.bind, pure, Except.pure]
  rw [pyTake_nat T _ nan (fun i hi => by have := h1 i hi; omega), pyTake_nat S _ nan h1,
    pyTake_nat T _ nan (fun i hi => by have := h2 i hi; omega), pyTake_nat S _ nan h2]

theorem getD_some {A : Type} (l : List A) (idx : List Nat) (d : A) (h : ∀ i ∈ idx, i < l.length) :
    (idx.map (fun i => l.getD i d)).map some = idx.map (fun i => l[i]?) := by
  rw [List.map_map]
  refine List.map_congr_left fun i hi => ?_
  rw [List.getElem?_eq_getElem (h i hi)]
  simp [h i hi]

/-- **C126, what holds.**  In every IEEE 754 format of at least two bits, overflow included: when all samples are finite and the product of two consecutive
steps is zero or at least the smallest positive number, simple detection reports exactly the extrema of the numbers the samples stand for (in the
sense of `C15_characterised`), with the samples themselves as values.  Missing to the full claim: products that underflow. -/
theorem C126_extrema_partial (hf : 1 ≤ f) (T S : List (Ieee f e E)) (hS : ∀ x ∈ S, x.isFinite = true) (hr : StepsResolved S)
    (hT : T.length = S.length) :
    ∃ (ex : Extrema (Ieee f e E)) (mx mn : List Nat), findExtrema .simple T S = .ok ex ∧ mx.Pairwise (· < ·) ∧ mn.Pairwise (· < ·) ∧
      ex.maxPos.map some = mx.map (fun i => T[i]?) ∧ ex.maxVal.map some = mx.map (fun i => S[i]?) ∧
      ex.minPos.map some = mn.map (fun i => T[i]?) ∧ ex.minVal.map some = mn.map (fun i => S[i]?) ∧
      (∀ m, m ∈ mx ↔ (∃ l r, IsTop (S.map val) l r ∧ ¬ (l = 1 ∧ l < r) ∧ IsMiddle l r m) ∨ ∃ r, FlatStartFalls (S.map val) r ∧ IsMiddle 0 r m) ∧
      (∀ m, m ∈ mn ↔ (∃ l r, IsBottom (S.map val) l r ∧ ¬ (l = 1 ∧ l < r) ∧ IsMiddle l r m) ∨
        ∃ r, FlatStartRises (S.map val) r ∧ IsMiddle 0 r m) := by
  obtain ⟨a, b, h⟩ := findExtrema_val hf T S hS hr hT
  have h1 : ∀ i ∈ reported isPos isNeg (S.map val), i < S.length := fun i hi => by
    have := reported_lt isPos_zero isNeg_zero hi
    rw [List.length_map] at this
    omega
  have h2 : ∀ i ∈ reported isNeg isPos (S.map val), i < S.length := fun i hi => by
    have := reported_lt isNeg_zero isPos_zero hi
    rw [List.length_map] at this
    omega
  exact ⟨_, _, _, h, (reported_spec _ _ isPos_zero isNeg_zero _).1, (reported_spec _ _ isNeg_zero isPos_zero _).1,
    getD_some _ _ _ (fun i hi => by have := h1 i hi; omega), getD_some _ _ _ h1,
    getD_some _ _ _ (fun i hi => by have := h2 i hi; omega), getD_some _ _ _ h2, fun _ => mem_maxima, fun _ => mem_minima⟩

/-- **C126, zero crossings.**  When the product of two consecutive samples is zero or at least the smallest positive number, the zero crossings (both detection
modes) are those of the numbers the samples stand for: the sign changes and the middles of the runs of zeros. -/
theorem C126_zero_crossings_partial (det : Detection) (T S : List (Ieee f e E)) (hS : ∀ x ∈ S, x.isFinite = true) (hr : SamplesResolved S)
    (ex : Extrema (Ieee f e E)) (h : findExtrema det T S = .ok ex) :
    ∃ C Z : List Nat, ∃ R : List (Nat × Nat),
      C.Pairwise (· < ·) ∧ (∀ i, i ∈ C ↔ IsSignChange (S.map val) i) ∧
      R.Pairwise (fun p q => p.2 < q.1) ∧ (∀ l r, (l, r) ∈ R ↔ IsZeroRun (S.map val) l r) ∧
      List.Forall₂ (fun p m => IsMiddle p.1 p.2 m) R Z ∧
      ex.indzer.Perm (C ++ Z) ∧ ex.indzer.length = C.length + R.length ∧ ex.indzer.Pairwise (· < ·) := by
  have hind : ex.indzer = zeroCrossings S := by
    cases det with
    | simple =>
      simp only [findExtrema, findExtremaSimple, bind_eq_ok, pure_eq_ok] at h
      obtain ⟨_, -, _, -, _, -, _, -, _, -, rfl⟩ := h
      rfl
    | parabol =>
      simp only [findExtrema, findExtremaParabol, bind_eq_ok, pure_eq_ok] at h
      obtain ⟨_, -, _, -, _, -, _, -, rfl⟩ := h
      rfl
    | unknown => cases h
  rw [hind, zeroCrossings_val S hS hr]
  have h2 := findExtremaSimple_eq (S.map val) (S.map val) rfl
  exact C17_zero_crossings .simple _ _ _ h2

/-- C126: when every step that is not zero is at least `2⁻ᵏ` with `2 k ≤ e` (in double precision: at least `2⁻⁵³⁷`, about `2·10⁻¹⁶²`) no product underflows. -/
theorem C126_steps (k : ℕ) (hk : 2 * k ≤ e) (S : List (Ieee f e E))
    (h : ∀ i x y, S[i]? = some x → S[i + 1]? = some y → y.val - x.val = 0 ∨ 1 / 2 ^ k ≤ |y.val - x.val|) : StepsResolved S := by
  intro i x y z hx hy hz
  rcases h i x y hx hy with h1 | h1
  · left; rw [h1, zero_mul]
  · rcases h (i + 1) y z hy hz with h2 | h2
    · left; rw [h2, mul_zero]
    · right
      rw [abs_mul]
      calc (1 : ℝ) / 2 ^ e ≤ 1 / 2 ^ (2 * k) := by
            apply one_div_le_one_div_of_le (by positivity)
            exact pow_le_pow_right₀ (by norm_num) hk
        _ = 1 / 2 ^ k * (1 / 2 ^ k) := by rw [two_mul, pow_add]; field_simp
        _ ≤ _ := mul_le_mul h1 h2 (by positivity) (abs_nonneg _)

/-- C126: whole numbers never underflow. -/
theorem C126_whole_numbers (S : List (Ieee f e E)) (h : ∀ x ∈ S, ∃ k : ℤ, x.val = k) : StepsResolved S ∧ SamplesResolved S := by
  have key : ∀ p : ℤ, (p : ℝ) = 0 ∨ 1 / 2 ^ e ≤ |(p : ℝ)| := by
    intro p
    by_cases hp : p = 0
    · left; rw [hp]; simp
    · right
      have h1 : (1 : ℝ) ≤ |(p : ℝ)| := by
        have : 1 ≤ |p| := Int.one_le_abs hp
        exact_mod_cast this
      refine le_trans ?_ h1
      rw [div_le_one (by positivity)]
      exact one_le_pow₀ (by norm_num)
  constructor
  · intro i x y z hx hy hz
    obtain ⟨a, ha⟩ := h x (List.mem_of_getElem? hx)
    obtain ⟨b, hb⟩ := h y (List.mem_of_getElem? hy)
    obtain ⟨c, hc⟩ := h z (List.mem_of_getElem? hz)
    have := key ((b - a) * (c - b))
    push_cast at this
    rw [ha, hb, hc]
    exact this
  · intro i x y hx hy
    obtain ⟨a, ha⟩ := h x (List.mem_of_getElem? hx)
    obtain ⟨b, hb⟩ := h y (List.mem_of_getElem? hy)
    have := key (a * b)
    push_cast at this
    rw [ha, hb]
    exact this

/-- Whole numbers in double precision. -/
def whole (l : List ℤ) : List F64 := l.map (fun k : ℤ => lit (Int.cast k))

theorem whole_isInt (l : List ℤ) (h : ∀ k ∈ l, k.natAbs ≤ 2 ^ 53) : ∀ x ∈ whole l, ∃ k : ℤ, IsInt x k := by
  intro x hx
  obtain ⟨k, hk, rfl⟩ := List.mem_map.1 hx
  exact ⟨k, isInt_lit (by norm_num) k (by simpa using h k hk)⟩

/-- A case: whole numbers with a plateau. -/
example : (∀ x ∈ whole [0, 2, 1, 3, 3, 0, 1], x.isFinite = true) ∧ StepsResolved (whole [0, 2, 1, 3, 3, 0, 1]) ∧ SamplesResolved (whole [0, 2, 1, 3, 3, 0, 1]) := by
  have h := whole_isInt [0, 2, 1, 3, 3, 0, 1] (by decide)
  exact ⟨fun x hx => (h x hx).choose_spec.finite, C126_whole_numbers _ (fun x hx => ⟨_, (h x hx).choose_spec.val⟩)⟩

/-- What it reports: maxima at 1 and 4 (the rounded middle of 3 and 4), minima at 2 and 5; no zero crossing but the zeros. -/
example : okWith (fun ex => decide (ex.maxPos = whole [1, 4] ∧ ex.minPos = whole [2, 5] ∧ ex.indzer = [0, 5]))
    (findExtrema .simple (whole [0, 1, 2, 3, 4, 5, 6]) (whole [0, 2, 1, 3, 3, 0, 1])) = true := by decide +kernel

/-- A tiny number, `10⁻¹⁷⁰`. -/
def tiny : F64 := lit (1 / 10 ^ 170)

/-- Four flat tops, each two samples long, over sharp dips of depth `10⁻¹⁷⁰`. -/
def tinyDips : List F64 :=
  [-tiny, lit 0, lit 0, -tiny, lit 0, lit 0, -tiny, lit 0, lit 0, -tiny, lit 0, lit 0, -tiny]

/-- **C126, violated by underflow.**  The dips are minima, but the product of the steps into and out of a dip is `10⁻³⁴⁰`, which is zero in double precision:
no minimum is reported, while the flat tops, which are found without products, are.  Zero crossings disappear in the same way. -/
theorem C126_counterexample :
    okWith (fun ex => decide (ex.minPos = [] ∧ ex.maxPos.length = 3)) (findExtrema .simple (whole [0, 1, 2, 3, 4, 5, 6, 7, 8, 9, 10, 11, 12]) tinyDips) = true ∧
    IsBottom tinyDips 3 3 ∧
    zeroCrossings [-tiny, tiny, -tiny] = [] ∧ zeroCrossings ([-1, 1, -1] : List ℚ) = [0, 1] := by
  refine ⟨by decide +kernel, ⟨by norm_num, le_refl 3, -tiny, lit 0, lit 0, ?_, rfl, rfl, by decide +kernel, by decide +kernel⟩, by decide +kernel, by decide +kernel⟩
  intro i h1 h2
  obtain rfl : i = 3 := by omega
  rfl

/-- The first round fails while the knots are prepared. -/
theorem emd_error_of_points {α : Type} [Add α] [Sub α] [Mul α] [Div α] [Neg α] [LT α] [LE α] [BEq α] [DecidableLT α] [DecidableLE α] [NpScalar α]
    (fuel : Nat) (sp : SciPy α) (cfg : Cfg α) (S : List α) (T : Option (List α)) (m : Int) (err : PyErr)
    (hM : 1 < cfg.MAX_ITERATION)
    (h : (do
      let T' ← prepareTime cfg S T
      let ex ← findExtrema cfg.detection T' (vsub S (sumRows S.length []))
      if ex.maxPos.length + ex.minPos.length < 3 then .error .outOfFuel
      else return (preparePoints cfg.detection cfg.nbsym T' (vsub S (sumRows S.length [])) ex)) = (.ok (.error err) : PyM (PyM _))) :
    emdPure (fuel + 1) sp cfg S T m = .error err := by
  rw [bind_eq_ok] at h
  obtain ⟨T', hT, h⟩ := h
  rw [bind_eq_ok] at h
  obtain ⟨ex, hex, h⟩ := h
  by_cases h3 : ex.maxPos.length + ex.minPos.length < 3
  · rw [if_pos h3] at h
    cases h
  rw [if_neg h3, pure_eq_ok] at h
  have hsp : extractMaxMinSpline sp cfg.detection cfg.splineKind cfg.nbsym T' (vsub S (sumRows S.length [])) = .error err := by
    unfold extractMaxMinSpline
    rw [hex]
    simp only [bind, Except.bind]
    rw [if_neg h3, h]
  have hround : emdRound sp cfg T' S [] (-1) = .error err := by
    unfold emdRound siftFuel
    have hb : ∀ x, siftBody sp cfg T' { n := 0, nh := 0, extNo := x, imf := vsub S (sumRows S.length []), subs := 0 } = .error err := by
      intro x
      unfold siftBody
      simp only [countExt, siftOnce, hex, hsp, bind, Except.bind, pure, Except.pure]
      rw [if_neg (by omega), if_pos (by omega)]
    simp only [siftLoop, hb, bind, Except.bind]
  unfold emdPure emdRounds
  simp only [hT, emdLoop, List.map_nil, hround, bind, Except.bind]

/-- **C126, the consequence.**  With the default configuration `emd` raises `IndexError` on this signal, whatever scipy does: three maxima and no minimum. -/
theorem C126_emd_raises (fuel : Nat) (sp : SciPy F64) (m : Int) : emdPure (fuel + 1) sp Cfg.default tinyDips none m = .error .indexError := by
  refine emd_error_of_points fuel sp Cfg.default tinyDips none m _ (by decide) ?_
  rw [← okErr_iff]
  decide +kernel

/-! ## C127: the timeline and the envelope knots -/

theorem IsInt.unique {x y : Ieee f e E} {k : ℤ} (hx : IsInt x k) (hy : IsInt y k) : x = y := by
  obtain ⟨h, rfl⟩ := hx
  obtain ⟨h', rfl⟩ := hy
  rfl

theorem IsInt.div_one (hE : f + 2 ≤ E) {x y : Ieee f e E} {k : ℤ} (hx : IsInt x k) (hy : IsInt y 1) (hk : k.natAbs ≤ 2 ^ (f + 1)) :
    IsInt (x / y) k := by
  obtain ⟨h, rfl⟩ := hx
  obtain ⟨h', rfl⟩ := hy
  have hp : (0 : ℤ) < 1 * 2 ^ e := by positivity
  have h1 : (num (k * 2 ^ e) h / num (1 * 2 ^ e) h' : Ieee f e E) =
      round (if (1 * 2 ^ e : ℤ) < 0 then -(k * 2 ^ e * 2 ^ e) else k * 2 ^ e * 2 ^ e) (1 * 2 ^ e : ℤ).natAbs (Int.natAbs_pos.2 hp.ne') :=
    dif_neg hp.ne'
  rw [h1]
  refine isInt_round hE _ k _ _ ?_ hk
  rw [if_neg (not_lt.2 hp.le), Int.natCast_natAbs, abs_of_pos hp, one_mul]

theorem npMin_const {x : Ieee f e E} (hx : x.isFinite = true) : ∀ l : List (Ieee f e E), (∀ y ∈ l, y = x) → l.foldl (pick (fun a b => lt a b)) x = x
  | [], _ => rfl
  | y :: l, h => by
    obtain rfl := h y (List.mem_cons_self ..)
    rw [List.foldl_cons]
    have : pick (fun a b => lt a b) y y = y := by
      obtain ⟨m, hm, rfl⟩ := eq_num hx
      simp only [pick]
      split <;> rfl
    rw [this]
    exact npMin_const hx l fun z hz => h z (List.mem_cons_of_mem _ hz)

/-- The stamps 0, 1, ..., n-1. -/
def stamps (n : Nat) : List (Ieee f e E) := (List.range n).map (fun k : Nat => lit (k : ℚ))

theorem stamp_isInt (hE : f + 2 ≤ E) (k : Nat) (hk : k ≤ 2 ^ (f + 1)) : IsInt (lit (k : ℚ) : Ieee f e E) k := by
  have h := isInt_lit (e := e) hE (k : ℤ) (by simpa using hk)
  rwa [Int.cast_natCast] at h

theorem isInt_beq {x y : Ieee f e E} {j k : ℤ} (hx : IsInt x j) (hy : IsInt y k) : (x == y) = decide (j = k) := by
  obtain ⟨h, rfl⟩ := hx
  obtain ⟨h', rfl⟩ := hy
  show decide (j * 2 ^ e = k * 2 ^ e) = _
  have hp : (2 ^ e : ℤ) ≠ 0 := by positivity
  simp [hp]

theorem prepareTime_eq (hE : f + 2 ≤ E) (cfg : Cfg (Ieee f e E)) (S : List (Ieee f e E)) (h2 : 2 ≤ S.length) (hn : S.length ≤ 2 ^ (f + 1) + 1) :
    prepareTime cfg S none = .ok (stamps S.length) := by
  have hI : ∀ k : Nat, k < S.length → IsInt (lit (k : ℚ) : Ieee f e E) k := fun k hk => stamp_isInt hE k (by omega)
  have hlen : (stamps S.length : List (Ieee f e E)).length = S.length := by simp [stamps]
  have hget : ∀ i (h : i < (stamps S.length : List (Ieee f e E)).length), (stamps S.length : List (Ieee f e E))[i] = lit (i : ℚ) := fun i h => by
    simp [stamps]
  have one : IsInt (lit ((1 : ℕ) : ℚ) : Ieee f e E) 1 := hI 1 (by omega)
  have zero : IsInt (lit 0 : Ieee f e E) 0 := by
    have := hI 0 (by omega)
    simpa using this
  have hd : ∀ x ∈ npDiff (stamps S.length : List (Ieee f e E)), x = lit ((1 : ℕ) : ℚ) := by
    intro x hx
    obtain ⟨i, hi, rfl⟩ := List.mem_iff_getElem.1 hx
    rw [npDiff_getElem]
    have hi' := hi
    rw [npDiff_length', hlen] at hi'
    rw [hget, hget]
    refine IsInt.unique (k := 1) ?_ one
    have := (hI (i + 1) (by omega)).sub hE (hI i (by omega)) (by
      have : (((i + 1 : ℕ) : ℤ) - (i : ℤ)) = 1 := by push_cast; ring
      rw [this]
      exact Nat.one_le_two_pow)
    rwa [show (((i + 1 : ℕ) : ℤ) - (i : ℤ)) = 1 by push_cast; ring] at this
  have hall : (npDiff (stamps S.length : List (Ieee f e E))).all (fun x => !(x == lit 0)) = true := by
    rw [List.all_eq_true]
    intro x hx
    rw [hd x hx, isInt_beq one zero]
    rfl
  have hmin : npMinE (npDiff (stamps S.length : List (Ieee f e E))) = .ok (lit ((1 : ℕ) : ℚ)) := by
    have hl := npDiff_length' (stamps S.length : List (Ieee f e E))
    rw [hlen] at hl
    cases hdd : npDiff (stamps S.length : List (Ieee f e E)) with
    | nil => rw [hdd, List.length_nil] at hl; omega
    | cons x l =>
      rw [hdd] at hd
      obtain rfl := hd x (List.mem_cons_self ..)
      show Except.ok (l.foldl (pick (fun a b => lt a b)) _) = _
      rw [npMin_const one.finite l fun y hy => hd y (List.mem_cons_of_mem _ hy)]
  have hpos : 0 < (stamps S.length : List (Ieee f e E)).length := by omega
  have h0 : pyGet (stamps S.length : List (Ieee f e E)) 0 = .ok (lit 0) := by
    have := pyGet_nat (stamps S.length : List (Ieee f e E)) 0 hpos
    rw [hget] at this
    simpa using this
  have htl : (timeline S.length : PyM (List (Ieee f e E))) = .ok (stamps S.length) := if_neg (by omega)
  show (do let t ← timeline S.length; normalizeTime t) = _
  rw [htl]
  show normalizeTime (stamps S.length) = _
  unfold normalizeTime
  dsimp only
  rw [if_pos hall, h0, hmin]
  refine congrArg Except.ok ?_
  refine List.ext_getElem (by simp) fun i h1 h2 => ?_
  rw [List.getElem_map]
  have hi : i < S.length := by rw [hlen] at h2; exact h2
  rw [hget]
  have hsub := (hI i hi).sub hE zero (by rw [sub_zero]; simp; omega)
  rw [sub_zero] at hsub
  exact (hsub.div_one hE one (by simp; omega)).unique (hI i hi)

/-- **C127, the timeline.**  In a format with `f` fraction bits the time stamps of a signal of 2 to `2ᶠ⁺¹ + 1` samples (`2⁵³ + 1` in double precision) are exactly
0, 1, ..., n-1, after normalisation as well. -/
theorem C127_timeline (hE : f + 2 ≤ E) (cfg : Cfg (Ieee f e E)) (S : List (Ieee f e E)) (h2 : 2 ≤ S.length) (hn : S.length ≤ 2 ^ (f + 1) + 1) :
    ∃ T : List (Ieee f e E), prepareTime cfg S none = .ok T ∧ T.length = S.length ∧ ∀ (i : Nat) x, T[i]? = some x → x.isFinite = true ∧ x.val = i := by
  refine ⟨_, prepareTime_eq hE cfg S h2 hn, by simp [stamps], fun i x hx => ?_⟩
  obtain ⟨hi, rfl⟩ := List.getElem?_eq_some_iff.1 hx
  have hi' : i < S.length := by simpa [stamps] using hi
  have := stamp_isInt (e := e) hE i (by omega)
  simp only [stamps, List.getElem_map, List.getElem_range]
  exact ⟨this.finite, by rw [this.val]; simp⟩

theorem getD_val (l : List (Ieee f e E)) (i : Nat) (a : Ieee f e E) (h : i < l.length) : (l.getD i a).val = sAt (l.map val) i := by
  simp [sAt, h]

/-- **C127.**  In a format with `f ≥ 1` fraction bits, for a signal of at most `2ᶠ` finite samples (`2⁵²` in double precision) whose steps have products that do not
underflow, for `nbsym ≥ 1` and at least three extrema: `prepare_points` raises no exception; the positions of the knots are whole numbers of magnitude at most `2ᶠ⁺¹` and the values are samples of the
signal; and the numbers they stand for are good knots (strictly increasing, at least three, enclosing the time span, all extrema among them) and are the ones exact
arithmetic gives. -/
theorem C127_knots (hf : 1 ≤ f) (hE : f + 2 ≤ E) (nbsym : Int) (hnb : 1 ≤ nbsym) (cfg : Cfg (Ieee f e E)) (S T : List (Ieee f e E))
    (hS : ∀ x ∈ S, x.isFinite = true) (hr : StepsResolved S) (h2 : 2 ≤ S.length) (hn : S.length ≤ 2 ^ f) (hT : prepareTime cfg S none = .ok T)
    (ex : Extrema (Ieee f e E)) (hex : findExtrema .simple T S = .ok ex) (h3 : 3 ≤ ex.maxPos.length + ex.minPos.length) :
    ∃ kmax kmin, preparePoints .simple nbsym T S ex = .ok (kmax, kmin) ∧
      (∀ p ∈ kmax ++ kmin, p.1.isFinite = true ∧ p.2 ∈ S ∧ ∃ k : ℤ, p.1.val = k ∧ k.natAbs ≤ 2 ^ (f + 1)) ∧
      GoodKnots (T.map val) (S.map val) (ex.maxPos.map val) (ex.maxVal.map val) (kmax.map vals) ∧
      GoodKnots (T.map val) (S.map val) (ex.minPos.map val) (ex.minVal.map val) (kmin.map vals) ∧
      ∃ ex', findExtrema .simple (T.map val) (S.map val) = .ok ex' ∧
        preparePoints .simple nbsym (T.map val) (S.map val) ex' = .ok (kmax.map vals, kmin.map vals) := by
  have hff : 2 ^ f ≤ 2 ^ (f + 1) := Nat.pow_le_pow_right (by norm_num) (by omega)
  rw [prepareTime_eq hE cfg S h2 (by omega)] at hT
  injection hT with hT
  subst hT
  have hlen : (stamps S.length : List (Ieee f e E)).length = S.length := by simp [stamps]
  have hst : ∀ x ∈ (stamps S.length : List (Ieee f e E)), Stamp x := by
    intro x hx
    obtain ⟨k, hk, rfl⟩ := List.mem_map.1 hx
    rw [List.mem_range] at hk
    refine ⟨k, stamp_isInt hE k (by omega), by omega, ?_⟩
    have : k ≤ 2 ^ f := by omega
    exact_mod_cast this
  have hmap : (stamps S.length : List (Ieee f e E)).map val = (List.range (S.map val).length).map (fun k : Nat => (k : ℝ)) := by
    rw [List.length_map, stamps, List.map_map]
    refine List.map_congr_left fun k hk => ?_
    rw [List.mem_range] at hk
    simp only [Function.comp]
    rw [(stamp_isInt (e := e) hE k (by omega)).val]
    simp
  have h1 : ∀ i ∈ reported isPos isNeg (S.map val), i < S.length := fun i hi => by
    have := reported_lt isPos_zero isNeg_zero hi
    rw [List.length_map] at this
    omega
  have h1' : ∀ i ∈ reported isNeg isPos (S.map val), i < S.length := fun i hi => by
    have := reported_lt isNeg_zero isPos_zero hi
    rw [List.length_map] at this
    omega
  obtain ⟨a, b, h⟩ := findExtrema_val hf _ S hS hr hlen
  rw [h] at hex
  injection hex with hex
  have hex' : findExtrema .simple ((stamps S.length : List (Ieee f e E)).map val) (S.map val) = _ :=
    findExtremaSimple_eq _ _ (by rw [List.length_map, List.length_map, hlen])
  have e1 : ex.maxPos.map val = (reported isPos isNeg (S.map val)).map (sAt ((stamps S.length : List (Ieee f e E)).map val)) := by
    rw [← hex, List.map_map]
    exact List.map_congr_left fun i hi => getD_val _ i a (by rw [hlen]; exact h1 i hi)
  have e2 : ex.maxVal.map val = (reported isPos isNeg (S.map val)).map (sAt (S.map val)) := by
    rw [← hex, List.map_map]
    exact List.map_congr_left fun i hi => getD_val _ i b (h1 i hi)
  have e3 : ex.minPos.map val = (reported isNeg isPos (S.map val)).map (sAt ((stamps S.length : List (Ieee f e E)).map val)) := by
    rw [← hex, List.map_map]
    exact List.map_congr_left fun i hi => getD_val _ i a (by rw [hlen]; exact h1' i hi)
  have e4 : ex.minVal.map val = (reported isNeg isPos (S.map val)).map (sAt (S.map val)) := by
    rw [← hex, List.map_map]
    exact List.map_congr_left fun i hi => getD_val _ i b (h1' i hi)
  have m1 : ∀ x ∈ ex.maxPos, Wide x := by
    rw [← hex]
    intro x hx
    obtain ⟨i, hi, rfl⟩ := List.mem_map.1 hx
    have hi' : i < (stamps S.length : List (Ieee f e E)).length := by rw [hlen]; exact h1 i hi
    refine (hst _ ?_).wide
    rw [List.getD_eq_getElem?_getD, List.getElem?_eq_getElem hi']
    exact List.getElem_mem _
  have m2 : ∀ x ∈ ex.minPos, Wide x := by
    rw [← hex]
    intro x hx
    obtain ⟨i, hi, rfl⟩ := List.mem_map.1 hx
    have hi' : i < (stamps S.length : List (Ieee f e E)).length := by rw [hlen]; exact h1' i hi
    refine (hst _ ?_).wide
    rw [List.getD_eq_getElem?_getD, List.getElem?_eq_getElem hi']
    exact List.getElem_mem _
  rw [← e1, ← e2, ← e3, ← e4] at hex'
  have tr := track_points hE nbsym _ S ex.maxPos ex.minPos hst hS m1 m2
  obtain ⟨kmax', kmin', hk, g1, g2⟩ := C21_knots nbsym hnb (S.map val) _ hmap _ hex' (by simpa using h3)
  have hk' : preparePointsSimple nbsym ((stamps S.length : List (Ieee f e E)).map val) (S.map val) (ex.maxPos.map val) (ex.minPos.map val) = .ok (kmax', kmin') := hk
  rw [hk'] at tr
  cases hp : preparePointsSimple nbsym (stamps S.length) S ex.maxPos ex.minPos with
  | error p => rw [hp] at tr; exact tr.elim
  | ok q =>
    rw [hp] at tr
    obtain ⟨⟨r1, q1⟩, ⟨r2, q2⟩⟩ := tr
    dsimp only at q1 q2
    subst q1
    subst q2
    refine ⟨q.1, q.2, hp, ?_, g1, g2, _, hex', hk⟩
    intro p hp
    rcases List.mem_append.1 hp with hp | hp
    · obtain ⟨⟨k, h1, h2⟩, h3⟩ := r1 p hp
      exact ⟨h1.finite, h3, k, h1.val, h2⟩
    · obtain ⟨⟨k, h1, h2⟩, h3⟩ := r2 p hp
      exact ⟨h1.finite, h3, k, h1.val, h2⟩

/-- A case in double precision: seven samples with four inner extrema. -/
example : ∃ kmax kmin, preparePoints .simple 2 (stamps 7) (whole [0, 2, 1, 3, 0, 2, 1])
      { maxPos := whole [1, 3, 5], maxVal := whole [2, 3, 2], minPos := whole [2, 4], minVal := whole [1, 0], indzer := [0, 4] } = .ok (kmax, kmin) ∧
    (kmax.map vals).Pairwise (fun p q => p.1 < q.1) := by
  have h := whole_isInt [0, 2, 1, 3, 0, 2, 1] (by decide)
  have hex : findExtrema .simple (stamps 7) (whole [0, 2, 1, 3, 0, 2, 1]) = .ok
      { maxPos := whole [1, 3, 5], maxVal := whole [2, 3, 2], minPos := whole [2, 4], minVal := whole [1, 0], indzer := [0, 4] } := by
    have h1 : okWith (fun ex => decide (ex.maxPos = whole [1, 3, 5] ∧ ex.maxVal = whole [2, 3, 2] ∧ ex.minPos = whole [2, 4] ∧ ex.minVal = whole [1, 0] ∧
        ex.indzer = [0, 4])) (findExtrema .simple (stamps 7) (whole [0, 2, 1, 3, 0, 2, 1])) = true := by decide +kernel
    cases hx : findExtrema .simple (stamps 7) (whole [0, 2, 1, 3, 0, 2, 1]) with
    | error er => rw [hx] at h1; exact (Bool.false_ne_true h1).elim
    | ok ex =>
      rw [hx] at h1
      have h2 := of_decide_eq_true h1
      obtain ⟨a, b, c, d, g⟩ := h2
      obtain ⟨q1, q2, q3, q4, q5⟩ := ex
      simp only at a b c d g
      rw [a, b, c, d, g]
  obtain ⟨kmax, kmin, h1, -, h2, -⟩ := C127_knots (f := 52) (e := 1074) (E := 1024) (by norm_num) (by norm_num) 2 (by norm_num) Cfg.default
    (whole [0, 2, 1, 3, 0, 2, 1]) (stamps 7) (fun x hx => (h x hx).choose_spec.finite)
    (C126_whole_numbers _ (fun x hx => ⟨_, (h x hx).choose_spec.val⟩)).1 (by decide) (by decide)
    (prepareTime_eq (by norm_num) Cfg.default (whole [0, 2, 1, 3, 0, 2, 1]) (by decide) (by decide)) _ hex (by decide)
  exact ⟨kmax, kmin, h1, h2.increasing⟩

/-- The first whole number that is not representable is rounded to the one before it. -/
theorem rndInt_gap (hf : 1 ≤ f) : rndInt f ((2 ^ (f + 1) + 1) * 2 ^ e) 1 = 2 ^ (f + 1) * 2 ^ e := by
  have hp : (0 : ℤ) < (2 ^ (f + 1) + 1) * 2 ^ e := by positivity
  have hn : ((2 ^ (f + 1) + 1) * 2 ^ e : ℤ).natAbs = (2 ^ (f + 1) + 1) * 2 ^ e := by
    have : ((2 ^ (f + 1) + 1) * 2 ^ e : ℤ) = (((2 ^ (f + 1) + 1) * 2 ^ e : ℕ) : ℤ) := by push_cast; rfl
    rw [this, Int.natAbs_natCast]
  rw [rndInt, if_neg (not_lt.2 hp.le), hn, rndNat, Nat.div_one, one_mul]
  have hlog : Nat.log2 ((2 ^ (f + 1) + 1) * 2 ^ e) = f + 1 + e := by
    rw [Nat.log2_eq_iff (by positivity)]
    constructor
    · rw [pow_add]
      exact Nat.mul_le_mul_right _ (by omega)
    · rw [show f + 1 + e + 1 = (f + 1 + 1) + e by omega, pow_add 2 (f + 1 + 1) e]
      refine Nat.mul_lt_mul_of_pos_right ?_ (by positivity)
      have : 2 ^ 1 ≤ 2 ^ (f + 1) := Nat.pow_le_pow_right (by norm_num) (by omega)
      rw [pow_succ 2 (f + 1)]
      omega
  rw [excess, hlog, show f + 1 + e - f = e + 1 by omega]
  have hq : (2 ^ (f + 1) + 1) * 2 ^ e = 2 ^ e + 2 ^ (e + 1) * 2 ^ f := by ring
  have hlt : 2 ^ e < 2 ^ (e + 1) := Nat.pow_lt_pow_right (by norm_num) (by omega)
  have hdiv : (2 ^ (f + 1) + 1) * 2 ^ e / 2 ^ (e + 1) = 2 ^ f := by
    rw [hq, Nat.add_mul_div_left _ _ (by positivity), Nat.div_eq_of_lt hlt, zero_add]
  have hmod : (2 ^ (f + 1) + 1) * 2 ^ e % 2 ^ (e + 1) = 2 ^ e := by
    rw [hq, Nat.add_mul_mod_self_left, Nat.mod_eq_of_lt hlt]
  have heven : 2 ^ f % 2 = 0 := by
    obtain ⟨k, rfl⟩ := Nat.exists_eq_add_of_le hf
    rw [pow_add, pow_one, Nat.mul_mod_right]
  have h22 : 2 * 2 ^ e = 2 ^ (e + 1) := by ring
  rw [roundDiv, hdiv, hmod, h22, if_neg (lt_irrefl _), if_neg (lt_irrefl _), heven]
  push_cast
  ring

theorem lit_gap (hf : 1 ≤ f) (hE : f + 2 ≤ E) : IsInt (lit ((2 ^ (f + 1) + 1 : ℕ) : ℚ) : Ieee f e E) (2 ^ (f + 1)) := by
  have h1 : rndInt f (((2 ^ (f + 1) + 1 : ℕ) : ℤ) * 2 ^ e) 1 = 2 ^ (f + 1) * 2 ^ e := by
    have := rndInt_gap (e := e) hf
    push_cast
    exact this
  have h2 := rep_int (e := e) hE (2 ^ (f + 1)) (by rw [Int.natAbs_pow]; rfl)
  refine ⟨h2, ?_⟩
  show (round (((2 ^ (f + 1) + 1 : ℕ) : ℚ).num * 2 ^ e) ((2 ^ (f + 1) + 1 : ℕ) : ℚ).den _ : Ieee f e E) = _
  have h3 : ∀ (n : ℤ) (d : ℕ) (hd : 0 < d), n = ((2 ^ (f + 1) + 1 : ℕ) : ℤ) * 2 ^ e → d = 1 →
      (round n d hd : Ieee f e E) = num (2 ^ (f + 1) * 2 ^ e) h2 := by
    rintro n d hd rfl rfl
    unfold round
    have h4 : (rndInt f (((2 ^ (f + 1) + 1 : ℕ) : ℤ) * 2 ^ e) 1).natAbs < 2 ^ (E + e) := by rw [h1]; exact h2.2
    rw [dif_pos h4]
    congr 1
  exact h3 _ _ _ (by rw [Rat.num_natCast]) (by rw [Rat.den_natCast])

theorem prepareTime_too_long (hf : 1 ≤ f) (hE : f + 2 ≤ E) (cfg : Cfg (Ieee f e E)) (S : List (Ieee f e E)) (hn : 2 ^ (f + 1) + 2 ≤ S.length) :
    prepareTime cfg S none = .error .assertionError := by
  have hlen : (stamps S.length : List (Ieee f e E)).length = S.length := by simp [stamps]
  have hget : ∀ i (h : i < (stamps S.length : List (Ieee f e E)).length), (stamps S.length : List (Ieee f e E))[i] = lit (i : ℚ) := fun i h => by
    simp [stamps]
  have zero : IsInt (lit 0 : Ieee f e E) 0 := by
    have := stamp_isInt (e := e) hE 0 (Nat.zero_le _)
    simpa using this
  have hi : 2 ^ (f + 1) < (npDiff (stamps S.length : List (Ieee f e E))).length := by rw [npDiff_length', hlen]; omega
  have hx : IsInt (npDiff (stamps S.length : List (Ieee f e E)))[2 ^ (f + 1)] 0 := by
    rw [npDiff_getElem, hget, hget]
    have := (lit_gap (e := e) hf hE).sub hE (stamp_isInt (e := e) hE (2 ^ (f + 1)) le_rfl) (by push_cast; rw [sub_self]; simp)
    push_cast at this ⊢
    rwa [sub_self] at this
  have hall : ¬ (npDiff (stamps S.length : List (Ieee f e E))).all (fun x => !(x == lit 0)) = true := by
    rw [List.all_eq_true]
    intro h
    have := h _ (List.getElem_mem hi)
    rw [isInt_beq hx zero] at this
    simp at this
  have htl : (timeline S.length : PyM (List (Ieee f e E))) = .ok (stamps S.length) := by
    have : 0 < 2 ^ (f + 1) := by positivity
    exact if_neg (by omega)
  show (do let t ← timeline S.length; normalizeTime t) = _
  rw [htl]
  show normalizeTime (stamps S.length) = _
  unfold normalizeTime
  dsimp only
  rw [if_neg hall]

/-- **C127, the limit.**  With two samples more than `2ᶠ⁺¹` the decomposition always raises `AssertionError`: two time stamps coincide.  In half precision these are
all signals from 2050 to 65503 samples (from there on `get_timeline` turns to single precision). -/
theorem C127_too_long (hf : 1 ≤ f) (hE : f + 2 ≤ E) (fuel : Nat) (sp : SciPy (Ieee f e E)) (cfg : Cfg (Ieee f e E)) (S : List (Ieee f e E))
    (hn : 2 ^ (f + 1) + 2 ≤ S.length) (m : Int) : emdPure fuel sp cfg S none m = .error .assertionError := by
  have hp := prepareTime_too_long hf hE cfg S hn
  unfold emdPure emdRounds
  rw [hp]
  rfl

/-- A case in half precision: 2050 samples. -/
example (sp : SciPy F16) : emdPure 5 sp Cfg.default (List.replicate 2050 (lit 1)) none (-1) = .error .assertionError :=
  C127_too_long (by norm_num) (by norm_num) 5 sp _ _ (by rw [List.length_replicate]; norm_num) (-1)

end Ieee
end PyEMD
