import Verif.Props.Ieee
import Verif.Props.NoRaise
import Verif.Props.EemdNoNoise

/-!
# C158: `EMD` raises no exception in floating point

What C22 says of exact arithmetic holds of IEEE 754 arithmetic as long as nothing overflows and no product of consecutive steps underflows.
-/

set_option linter.unusedSectionVars false

namespace PyEMD
namespace EMD
open Spec PyEMD.Spec

section
variable {α : Type} [Add α] [Sub α] [Mul α] [Div α] [Neg α] [LT α] [LE α] [BEq α] [DecidableLT α] [DecidableLE α] [NpScalar α]

/-- The sequences that are searched for extrema while one IMF is sifted, from the state `s` on: the proto-IMF and what one sifting makes
of it. -/
inductive Spec.Met (sp : SciPy α) (cfg : Cfg α) (T : List α) : Sift α → List α → Prop
  | here (s : Sift α) : Met sp cfg T s s.imf
  | sifted {s : Sift α} {e z : Int} {y : List α} {a b : List (α × α)} : s.n + 1 < cfg.MAX_ITERATION → countExt cfg T s.imf = .ok (e, z) →
      2 < e → siftOnce sp cfg T s.imf = .ok (y, a, b) → Met sp cfg T s y
  | step {s s' : Sift α} {x : List α} : siftBody sp cfg T s = .ok (.cont s') → Met sp cfg T s' x → Met sp cfg T s x

/-- The sequences that are searched for extrema in a decomposition of `S` into at most `m` IMFs once `rounds` have been done. -/
inductive Spec.Searched (sp : SciPy α) (cfg : Cfg α) (T S : List α) (m : Int) : List (Round α) → Int → List α → Prop
  | sift {rounds : List (Round α)} {e : Int} {x : List α} :
      Met sp cfg T { n := 0, nh := 0, extNo := e, imf := vsub S (sumRows S.length (rounds.map (·.imf))), subs := 0 } x →
      Searched sp cfg T S m rounds e x
  | next {rounds : List (Round α)} {e : Int} {x : List α} {s : Sift α} {why : SiftEnd} :
      emdRound sp cfg T S (rounds.map (·.imf)) e = .ok (s, why) →
      endCondition cfg S ((rounds ++ [({ imf := s.imf, why, subs := s.subs, nh := s.nh } : Round α)]).map (·.imf)) = .ok false →
      ((rounds.length : Int) + 1 ≠ m) → why ≠ .trend →
      Searched sp cfg T S m (rounds ++ [{ imf := s.imf, why, subs := s.subs, nh := s.nh }]) s.extNo x →
      Searched sp cfg T S m rounds e x

/-- Nothing goes wrong with this sequence. -/
structure Fine (sp : SciPy α) (cfg : Cfg α) (T : List α) (x : List α) : Prop where
  ne : x ≠ []
  counts : ∃ e z, countExt cfg T x = .ok (e, z)
  sifts : ∀ e z, countExt cfg T x = .ok (e, z) → 2 < e → ∃ y a b, siftOnce sp cfg T x = .ok (y, a, b)

theorem checkImf_ok' (cfg : Cfg α) (a b : List α) (hb : b ≠ []) (p q : List (α × α)) : ∃ v, checkImf cfg a b p q = .ok v := by
  obtain ⟨c, b, rfl⟩ := List.exists_cons_of_ne_nil hb
  unfold checkImf
  split
  · exact ⟨_, rfl⟩
  · split
    · exact ⟨_, rfl⟩
    · simp only [pyMax, pyMin, bind, Except.bind, pure, Except.pure]
      split
      · exact ⟨_, rfl⟩
      · split
        · exact ⟨_, rfl⟩
        · split <;> exact ⟨_, rfl⟩

theorem siftBody_fine {sp : SciPy α} {cfg : Cfg α} {T : List α} {s : Sift α} (h : ∀ x, Met sp cfg T s x → Fine sp cfg T x) :
    ∃ r, siftBody sp cfg T s = .ok r := by
  have hs := h _ (.here s)
  unfold siftBody
  simp only []
  split
  · exact ⟨_, rfl⟩
  next hM =>
  obtain ⟨e, z, hc⟩ := hs.counts
  simp only [hc, bind, Except.bind]
  split
  · next he =>
    obtain ⟨y, a, b, h1⟩ := hs.sifts e z hc he
    have hy := h y (.sifted (by omega) hc he h1)
    simp only [h1]
    obtain ⟨e', z', hc'⟩ := hy.counts
    obtain ⟨v, hv⟩ := checkImf_ok' cfg y s.imf hs.ne a b
    split
    · split <;> exact ⟨_, rfl⟩
    · split
      · simp only [hc']
        split
        · exact ⟨_, rfl⟩
        · split <;> split <;> exact ⟨_, rfl⟩
      · simp only [hc', hv]
        split <;> exact ⟨_, rfl⟩
  · exact ⟨_, rfl⟩

theorem siftLoop_fine {sp : SciPy α} {cfg : Cfg α} {T : List α} (fuel : Nat) (s : Sift α) (h : ∀ x, Met sp cfg T s x → Fine sp cfg T x)
    (err : PyErr) (he : siftLoop sp cfg T fuel s = .error err) : err = .outOfFuel := by
  induction fuel generalizing s with
  | zero => simp [siftLoop] at he; exact he.symm
  | succ fuel ih =>
    obtain ⟨r, hr⟩ := siftBody_fine h
    unfold siftLoop at he
    simp only [hr, bind, Except.bind] at he
    cases r with
    | brk s' why => simp [pure, Except.pure] at he
    | cont s' => exact ih s' (fun x hx => h x (.step hr hx)) he

theorem endCondition_total' (cfg : Cfg α) (S : List α) (hn : 0 < S.length) (IMF : List (List α)) (hI : ∀ r ∈ IMF, r.length = S.length) :
    ∃ b, endCondition cfg S IMF = .ok b := by
  have hl : (vsub S (sumRows S.length IMF)).length = S.length := (isResidue_vsub S IMF hI).1
  have hne : (vsub S (sumRows S.length IMF)).isEmpty = false := by
    rw [List.isEmpty_eq_false_iff]
    exact List.ne_nil_of_length_pos (by omega)
  unfold endCondition npMaxE npMinE
  simp only [hne, bind, Except.bind, Bool.false_eq_true, if_false, pure, Except.pure]
  split
  · exact ⟨_, rfl⟩
  · split <;> exact ⟨_, rfl⟩

theorem emdLoop_fine {sp : SciPy α} {cfg : Cfg α} {T S : List α} (hn : 0 < S.length) {mi : Int} (fuel : Nat) (rounds : List (Round α))
    (hR : ∀ r ∈ rounds, r.imf.length = S.length) (e : Int) (h : ∀ x, x.length = S.length → Searched sp cfg T S mi rounds e x → Fine sp cfg T x)
    (err : PyErr) (he : emdLoop sp cfg T S mi fuel rounds e = .error err) : err = .outOfFuel := by
  induction fuel generalizing rounds e with
  | zero => simp [emdLoop] at he; exact he.symm
  | succ fuel ih =>
    have hI : ∀ r ∈ rounds.map (·.imf), r.length = S.length := by
      simp only [List.mem_map]
      rintro _ ⟨r, hr, rfl⟩
      exact hR r hr
    have hl : (vsub S (sumRows S.length (rounds.map (·.imf)))).length = S.length := (isResidue_vsub S _ hI).1
    have hmet : ∀ (s : Sift α) (x : List α), Met sp cfg T s x → s.imf.length = S.length → x.length = S.length := by
      intro s x hx
      induction hx with
      | here s => exact id
      | sifted _ _ _ h4 => intro h5; rw [siftOnce_length h4, h5]
      | step h1 _ ih =>
        intro h5
        apply ih
        rw [← h5]
        unfold siftBody at h1
        simp only [bind, Except.bind, pure, Except.pure] at h1
        repeat' split at h1
        all_goals first
          | (cases h1; done)
          | (injection h1 with h1; cases h1; done)
          | (injection h1 with h1; injection h1 with h1; subst h1; exact siftOnce_length (by assumption))
    obtain ⟨⟨s, why⟩, hr⟩ : ∃ r, emdRound sp cfg T S (rounds.map (·.imf)) e = .ok r := by
      cases hr : emdRound sp cfg T S (rounds.map (·.imf)) e with
      | ok r => exact ⟨r, rfl⟩
      | error err =>
        have h1 := emdRound_noFuel sp cfg T S (rounds.map (·.imf)) e
        have hr' := hr
        unfold emdRound at hr'
        have := siftLoop_fine _ _ (fun x hx => h x (hmet _ x hx hl) (.sift hx)) err hr'
        subst this
        exact absurd hr h1
    obtain ⟨seq, hpost⟩ := emdRound_post hr
    have hls : s.imf.length = S.length := by
      rw [hpost.path.length]; exact hl
    have hR' : ∀ r ∈ rounds ++ [{ imf := s.imf, why := why, subs := s.subs, nh := s.nh }], r.imf.length = S.length := by
      intro r hr'
      rcases List.mem_append.1 hr' with h' | h'
      · exact hR r h'
      · simp at h'; subst h'; exact hls
    obtain ⟨b, hb⟩ := endCondition_total' cfg S hn
      ((rounds ++ [({ imf := s.imf, why := why, subs := s.subs, nh := s.nh } : Round α)]).map (fun x : Round α => x.imf)) (by
      simp only [List.mem_map]
      rintro _ ⟨r, hr, rfl⟩
      exact hR' r hr)
    unfold emdLoop at he
    simp only [hr, bind, Except.bind, hb] at he
    split at he
    · simp [pure, Except.pure] at he
    next hc =>
    simp only [Bool.or_eq_true, not_or, decide_eq_true_eq, beq_iff_eq] at hc
    refine ih _ hR' _ (fun x hx hs => h x hx (.next hr ?_ ?_ hc.2 hs)) he
    · rw [hb]; congr 1; simpa using hc.1.1
    · have := hc.1.2
      simpa using this

end

/-! ## The three-point spline -/

section
variable {α : Type} [Add α] [Sub α] [Mul α] [Div α] [Neg α] [LT α] [LE α] [BEq α] [DecidableLT α] [DecidableLE α] [NpScalar α]

/-- A product that does not underflow. -/
theorem mul_between (A : FloatArith α) (hu : A.u ≤ 1 / 32) {x y : α} (h : A.finite (x * y)) {p : ℝ} (hp : 0 < p)
    (hxy : p ≤ A.val x * A.val y) (he : A.eta ≤ A.u * p) :
    15 / 16 * (A.val x * A.val y) ≤ A.val (x * y) ∧ A.val (x * y) ≤ 17 / 16 * (A.val x * A.val y) := by
  obtain ⟨-, -, h1⟩ := A.mul x y h
  have hu0 := A.u_nonneg
  generalize A.val x * A.val y = r at *
  have hr : 0 < r := lt_of_lt_of_le hp hxy
  rw [abs_of_pos hr] at h1
  have h2 : A.u * p ≤ A.u * r := mul_le_mul_of_nonneg_left hxy hu0
  have h3 : A.u * r ≤ 1 / 32 * r := mul_le_mul_of_nonneg_right hu hr.le
  obtain ⟨h4, h5⟩ := abs_le.1 h1
  constructor <;> linarith

theorem near_between {u x r : ℝ} (hu : u ≤ 1 / 32) (hr : 0 ≤ r) (h : |x - r| ≤ u * |r|) : 31 / 32 * r ≤ x ∧ x ≤ 33 / 32 * r := by
  rw [abs_of_nonneg hr] at h
  have h3 : u * r ≤ 1 / 32 * r := mul_le_mul_of_nonneg_right hu hr
  obtain ⟨h4, h5⟩ := abs_le.1 h
  constructor <;> linarith

/-- The determinant of the three-point spline is positive if it is finite. -/
theorem det_pos (A : FloatArith α) (hu : A.u ≤ 1 / 32) (h2 : A.val (lit 2) = 2) {m : ℝ} (hm : 0 < m) (hm1 : m ≤ 1) (he : A.eta ≤ A.u * m ^ 3)
    {a b : α} (ha : m ≤ A.val a) (hb : m ≤ A.val b) (hz : ∀ x, A.finite x → A.val (lit 0 * x) = 0 ∧ A.val (x * lit 0) = 0)
    (hD : A.finite (det3 (lit 2 * a) a (lit 0) a (lit 2 * (a + b)) b (lit 0) b (lit 2 * b))) :
    0 < A.val (det3 (lit 2 * a) a (lit 0) a (lit 2 * (a + b)) b (lit 0) b (lit 2 * b)) := by
  unfold det3 at hD ⊢
  obtain ⟨fR, fZ, nD⟩ := A.add _ _ hD
  obtain ⟨-, fz, -⟩ := A.mul _ _ fZ
  rw [(hz _ fz).1, add_zero] at nD
  obtain ⟨fP, fQ, nR⟩ := A.sub _ _ fR
  obtain ⟨fa2, fX, -⟩ := A.mul _ _ fP
  obtain ⟨fW, fV, nX⟩ := A.sub _ _ fX
  obtain ⟨f22, f33, -⟩ := A.mul _ _ fW
  obtain ⟨-, fs, -⟩ := A.mul _ _ f22
  obtain ⟨fa, fb, ns⟩ := A.add _ _ fs
  obtain ⟨-, fY, -⟩ := A.mul _ _ fQ
  obtain ⟨fU, fz0, nY⟩ := A.sub _ _ fY
  rw [(hz _ fb).2, sub_zero] at nY
  have hu0 := A.u_nonneg
  have m2 : m ^ 2 ≤ m := by nlinarith
  have m3 : m ^ 3 ≤ m ^ 2 := by nlinarith [sq_nonneg m]
  have e2 : A.eta ≤ A.u * m ^ 2 := he.trans (mul_le_mul_of_nonneg_left m3 hu0)
  have e1 : A.eta ≤ A.u * m := e2.trans (mul_le_mul_of_nonneg_left m2 hu0)
  have a0 : 0 < A.val a := lt_of_lt_of_le hm ha
  have b0 : 0 < A.val b := lt_of_lt_of_le hm hb
  have ba2 := mul_between A hu fa2 hm (by rw [h2]; linarith) e1
  have bs := near_between hu (by linarith) ns
  have b22 := mul_between A hu f22 hm (by rw [h2]; linarith [bs.1]) e1
  have b33 := mul_between A hu f33 hm (by rw [h2]; linarith) e1
  rw [h2] at ba2 b22 b33
  generalize ga2 : A.val (lit 2 * a) = a2 at *
  generalize A.val (a + b) = s at *
  generalize hm22 : A.val (lit 2 * (a + b)) = m22 at *
  generalize hm33 : A.val (lit 2 * b) = m33 at *
  generalize ga : A.val a = x at *
  generalize gb : A.val b = y at *
  have xy0 : 0 < x * y := mul_pos a0 b0
  have mm : m ^ 2 ≤ x * y := by rw [sq]; exact mul_le_mul ha hb hm.le a0.le
  have yy : m ^ 2 ≤ y * y := by rw [sq]; exact mul_le_mul hb hb hm.le b0.le
  have c22 : 29 / 16 * (x + y) ≤ m22 := by linarith [bs.1, b22.1]
  have c33 : 15 / 8 * y ≤ m33 := by linarith [b33.1]
  have d33 : m33 ≤ 17 / 8 * y := by linarith [b33.2]
  have p1 : 29 / 16 * (x + y) * (15 / 8 * y) ≤ m22 * m33 := mul_le_mul c22 c33 (by positivity) (by linarith)
  have p1' : 29 / 16 * (x + y) * (15 / 8 * y) = 435 / 128 * (x * y) + 435 / 128 * (y * y) := by ring
  have bW := mul_between A hu fW (pow_pos hm 2) (by rw [hm22, hm33]; linarith [pow_pos hm 2]) e2
  have bV := mul_between A hu fV (pow_pos hm 2) (by rw [gb]; exact yy) e2
  rw [gb] at bV
  rw [hm22, hm33] at bW
  have bX := near_between hu (by linarith [bW.1, bV.2, pow_pos hm 2]) nX
  have cX : 5 / 2 * (x * y) ≤ A.val (lit 2 * (a + b) * (lit 2 * b) - b * b) := by linarith [bW.1, bV.2, bX.1, pow_pos hm 2]
  have p2 : x * (15 / 8 * y) ≤ x * m33 := mul_le_mul_of_nonneg_left c33 a0.le
  have p3 : x * m33 ≤ x * (17 / 8 * y) := mul_le_mul_of_nonneg_left d33 a0.le
  have p2' : x * (15 / 8 * y) = 15 / 8 * (x * y) := by ring
  have p3' : x * (17 / 8 * y) = 17 / 8 * (x * y) := by ring
  have bU := mul_between A hu fU (pow_pos hm 2) (by rw [ga, hm33]; linarith) e2
  rw [ga, hm33] at bU
  have bY := near_between hu (by linarith [bU.1]) nY
  have cY : x * y ≤ A.val (a * (lit 2 * b) - b * lit 0) := by linarith [bU.1, bY.1]
  have dY : A.val (a * (lit 2 * b) - b * lit 0) ≤ 19 / 8 * (x * y) := by linarith [bU.2, bY.2]
  generalize gX : A.val (lit 2 * (a + b) * (lit 2 * b) - b * b) = X at *
  generalize gY : A.val (a * (lit 2 * b) - b * lit 0) = Y at *
  have ca2 : 15 / 8 * x ≤ a2 := by linarith [ba2.1]
  have xxy : m ^ 3 ≤ x * (x * y) := by
    have : m ^ 3 = m * m ^ 2 := by ring
    rw [this]
    exact mul_le_mul ha mm (by positivity) a0.le
  have t0 : 0 < x * (x * y) := mul_pos a0 xy0
  have p4 : 15 / 8 * x * (5 / 2 * (x * y)) ≤ a2 * X := mul_le_mul ca2 cX (by positivity) (by linarith)
  have p4' : 15 / 8 * x * (5 / 2 * (x * y)) = 75 / 16 * (x * (x * y)) := by ring
  have p5 : x * (x * y) ≤ x * Y := mul_le_mul_of_nonneg_left cY a0.le
  have p6 : x * Y ≤ x * (19 / 8 * (x * y)) := mul_le_mul_of_nonneg_left dY a0.le
  have p6' : x * (19 / 8 * (x * y)) = 19 / 8 * (x * (x * y)) := by ring
  have bP := mul_between A hu fP (pow_pos hm 3) (by rw [ga2, gX]; linarith) he
  have bQ := mul_between A hu fQ (pow_pos hm 3) (by rw [ga, gY]; linarith) he
  rw [ga2, gX] at bP
  rw [ga, gY] at bQ
  have bR := near_between hu (by linarith [bP.1, bQ.2]) nR
  have bD := near_between hu (by linarith [bP.1, bQ.2, bR.1]) nD
  linarith [bP.1, bQ.2, bR.1, bD.1]

end


/-! ## IEEE 754 formats -/

section
open PyEMD.Ieee
variable {f e E : ℕ}

/-- The contract of a scipy interpolator in floating point: finite, strictly increasing knots, at least three of them, one finite ordinate per knot and finite
evaluation points within the range of the knots give one value per evaluation point. -/
def Spec.AcceptsFinite (g : Interp (Ieee f e E)) : Prop :=
  ∀ X Y t : List (Ieee f e E), 3 ≤ X.length → X.length = Y.length → (∀ x ∈ X ++ Y ++ t, x.isFinite = true) → X.Pairwise (· < ·) →
    (∀ τ ∈ t, ∃ a b, X.head? = some a ∧ X.getLast? = some b ∧ a ≤ τ ∧ τ ≤ b) → ∃ q, g X Y t = some q ∧ q.length = t.length

/-- All interpolators do. -/
def Spec.AcceptsFiniteAll (sp : SciPy (Ieee f e E)) : Prop :=
  AcceptsFinite sp.akima ∧ AcceptsFinite sp.cubic ∧ AcceptsFinite sp.pchip ∧ AcceptsFinite sp.cubicHermite ∧ AcceptsFinite sp.slinear ∧
    AcceptsFinite sp.quadratic ∧ AcceptsFinite sp.linear

theorem le_iff_val {x y : Ieee f e E} (hx : x.isFinite = true) (hy : y.isFinite = true) : x ≤ y ↔ x.val ≤ y.val := by
  obtain ⟨a, ha, rfl⟩ := eq_num hx
  obtain ⟨b, hb, rfl⟩ := eq_num hy
  rw [le_num]
  simp only [Ieee.val]
  rw [div_le_div_iff_of_pos_right (by positivity)]
  exact Int.cast_le.symm

/-- The difference of two knots does not overflow. -/
theorem gap_finite (hE : f + 3 ≤ E) {x y : Ieee f e E} (hx : x.isFinite = true) (hy : y.isFinite = true) (hlt : y.val < x.val)
    (hg : x.val - y.val ≤ 2 ^ (f + 2)) : (x - y).isFinite = true := by
  obtain ⟨a, ha, rfl⟩ := eq_num hx
  obtain ⟨b, hb, rfl⟩ := eq_num hy
  simp only [Ieee.val] at hlt hg
  have hp : (0 : ℝ) < 2 ^ e := by positivity
  rw [div_lt_div_iff_of_pos_right hp] at hlt
  rw [← sub_div, div_le_iff₀ hp] at hg
  have h1 : b < a := by exact_mod_cast hlt
  have h2 : a - b ≤ 2 ^ (f + 2) * 2 ^ e := by exact_mod_cast hg
  have top : Rep f e E (1 * 2 ^ (f + 2 + e)) := by
    refine ⟨rndInt_exact f 1 _ (by simpa using Nat.one_le_two_pow), ?_⟩
    rw [one_mul, Int.natAbs_pow]
    exact Nat.pow_lt_pow_right (by norm_num) (by omega)
  obtain ⟨m, hm, h3, -⟩ := round_bounds (n := a - b) rep_zero top (by omega) (by rw [one_mul, pow_add]; exact h2)
  rw [sub_num, h3]
  rfl

theorem recip_lower (hf : 4 ≤ f) (he : 4 * f + 9 ≤ e) (hE : f + 2 ≤ E) {x y : Ieee f e E} (hx : x.isFinite = true) (hy : y.isFinite = true)
    (hlt : y.val < x.val) (hg : x.val - y.val ≤ 2 ^ (f + 2)) (hfin : (lit 1 / (x - y) : Ieee f e E).isFinite = true) (hd : (x - y).isFinite = true) :
    1 / 2 ^ (f + 3) ≤ (lit 1 / (x - y) : Ieee f e E).val := by
  have one : (lit 1 : Ieee f e E).val = 1 := by
    have := (isInt_lit (f := f) (e := e) hE 1 (by simpa using Nat.one_le_two_pow)).val
    simpa using this
  obtain ⟨-, -, h1⟩ := (arith (f := f) (e := e) (E := E) (by omega) (by omega)).sub x y hd
  obtain ⟨-, -, h2⟩ := (arith (f := f) (e := e) (E := E) (by omega) (by omega)).div (lit 1) (x - y) hfin hd
  change |(x - y).val - (x.val - y.val)| ≤ 1 / 2 ^ (f + 1) * |x.val - y.val| at h1
  change |(lit 1 / (x - y) : Ieee f e E).val - (lit 1 : Ieee f e E).val / (x - y).val| ≤ 1 / 2 ^ (f + 1) * |(lit 1 : Ieee f e E).val / (x - y).val| + 1 / 2 ^ (e + 1) at h2
  have hu : (1 : ℝ) / 2 ^ (f + 1) ≤ 1 / 32 := by
    rw [show (32 : ℝ) = 2 ^ 5 by norm_num]
    exact one_div_le_one_div_of_le (by positivity) (pow_le_pow_right₀ (by norm_num) (by omega))
  obtain ⟨l1, l2⟩ := near_between hu (by linarith) h1
  have hpos : 0 < (x - y).val := by linarith
  rw [one] at h2
  have hp2 : (0 : ℝ) < 2 ^ (f + 2) := by positivity
  have hq : 32 / 33 * (1 / 2 ^ (f + 2)) ≤ 1 / (x - y).val := by
    rw [show (32 / 33 * (1 / 2 ^ (f + 2)) : ℝ) = 1 / (33 / 32 * 2 ^ (f + 2)) by field_simp]
    exact one_div_le_one_div_of_le hpos (by linarith)
  have hr : 0 < 1 / (x - y).val := by positivity
  generalize 1 / (x - y).val = r at *
  rw [abs_of_pos hr] at h2
  have h3 : 1 / 2 ^ (f + 1) * r ≤ 1 / 32 * r := mul_le_mul_of_nonneg_right hu hr.le
  have he' : (1 : ℝ) / 2 ^ (e + 1) ≤ 1 / 4 * (1 / 2 ^ (f + 2)) := by
    rw [show (1 / 4 * (1 / 2 ^ (f + 2)) : ℝ) = 1 / 2 ^ (f + 4) by rw [pow_add, pow_add]; field_simp; norm_num]
    exact one_div_le_one_div_of_le (by positivity) (pow_le_pow_right₀ (by norm_num) (by omega))
  have h5 := (abs_le.1 h2).1
  have h6 : (1 : ℝ) / 2 ^ (f + 3) = 1 / 2 * (1 / 2 ^ (f + 2)) := by rw [pow_succ]; field_simp
  have h7 : (0 : ℝ) < 1 / 2 ^ (f + 2) := by positivity
  rw [h6]
  linarith

/-- The slopes of the three-point spline exist: its determinant is not zero. -/
theorem slopes_ok (hf : 4 ≤ f) (he : 4 * f + 9 ≤ e) (hE : f + 3 ≤ E) (x0 x1 x2 y0 y1 y2 : Ieee f e E) (h0 : x0.isFinite = true) (h1 : x1.isFinite = true)
    (h2 : x2.isFinite = true) (l0 : x0.val < x1.val) (l1 : x1.val < x2.val) (g0 : x1.val - x0.val ≤ 2 ^ (f + 2)) (g1 : x2.val - x1.val ≤ 2 ^ (f + 2)) :
    ∃ k, spline3Slopes x0 x1 x2 y0 y1 y2 = .ok k := by
  unfold spline3Slopes solve3
  dsimp only
  generalize ha : (lit 1 / (x1 - x0) : Ieee f e E) = a
  generalize hb : (lit 1 / (x2 - x1) : Ieee f e E) = b
  split
  · next hD =>
    exfalso
    generalize hd : det3 (lit 2 * a) a (lit 0) a (lit 2 * (a + b)) b (lit 0) b (lit 2 * b) = D at hD
    have hDf : D.isFinite = true ∧ D.val = 0 := by
      rw [Ieee.lit_zero] at hD
      cases D with
      | num n hn =>
        have : n = 0 := of_decide_eq_true hD
        subst this
        exact ⟨rfl, by simp [Ieee.val]⟩
      | inf s => exact absurd hD (by simp [BEq.beq, Ieee.beq])
      | nan => exact absurd hD (by simp [BEq.beq, Ieee.beq])
    let A := arith (f := f) (e := e) (E := E) (by omega) (by omega)
    have fD : A.finite (det3 (lit 2 * a) a (lit 0) a (lit 2 * (a + b)) b (lit 0) b (lit 2 * b)) := by rw [hd]; exact hDf.1
    have fab : A.finite a ∧ A.finite b := by
      have fD' := fD
      unfold det3 at fD'
      obtain ⟨fR, -, -⟩ := A.add _ _ fD'
      obtain ⟨-, fQ, -⟩ := A.sub _ _ fR
      obtain ⟨fa, fY, -⟩ := A.mul _ _ fQ
      obtain ⟨-, fz, -⟩ := A.sub _ _ fY
      exact ⟨fa, (A.mul _ _ fz).1⟩
    have hm : (0 : ℝ) < 1 / 2 ^ (f + 3) := by positivity
    have ra := recip_lower hf he (by omega) h1 h0 l0 g0 (by rw [ha]; exact fab.1) (gap_finite hE h1 h0 l0 g0)
    have rb := recip_lower hf he (by omega) h2 h1 l1 g1 (by rw [hb]; exact fab.2) (gap_finite hE h2 h1 l1 g1)
    rw [ha] at ra
    rw [hb] at rb
    have two : A.val (lit 2) = 2 := by
      show (lit 2 : Ieee f e E).val = 2
      have := (isInt_lit (f := f) (e := e) (E := E) (by omega) 2 (by rw [pow_succ]; have := Nat.one_le_two_pow (n := f); simp; omega)).val
      simpa using this
    have hz : ∀ x, A.finite x → A.val (lit 0 * x) = 0 ∧ A.val (x * lit 0) = 0 := by
      intro x hx
      have h3 := EEMD.zero_width x hx
      exact ⟨by rw [h3]; exact A.zero.2, by rw [Ieee.mul_comm', h3]; exact A.zero.2⟩
    have hu : A.u ≤ 1 / 32 := by
      show (1 : ℝ) / 2 ^ (f + 1) ≤ 1 / 32
      rw [show (32 : ℝ) = 2 ^ 5 by norm_num]
      exact one_div_le_one_div_of_le (by positivity) (pow_le_pow_right₀ (by norm_num) (by omega))
    have heta : A.eta ≤ A.u * (1 / 2 ^ (f + 3)) ^ 3 := by
      show (1 : ℝ) / 2 ^ (e + 1) ≤ 1 / 2 ^ (f + 1) * (1 / 2 ^ (f + 3)) ^ 3
      rw [div_pow, one_pow, ← pow_mul, div_mul_div_comm, one_mul, ← pow_add]
      exact one_div_le_one_div_of_le (by positivity) (pow_le_pow_right₀ (by norm_num) (by omega))
    have := det_pos A hu two hm (by rw [div_le_one (by positivity)]; exact one_le_pow₀ (by norm_num)) heta ra rb hz fD
    rw [hd] at this
    have h5 : A.val D = 0 := hDf.2
    linarith
  · exact ⟨_, rfl⟩

/-- Formats and kinds of splines for which the three-point spline is safe: it is used for cubic splines only, and then the format must hold the product of three
reciprocal distances without underflow.  Double and single precision do; half precision does not. -/
def Spec.Roomy (f e E : ℕ) (kind : SplineKind) : Prop := kind = .cubic → 4 ≤ f ∧ 4 * f + 9 ≤ e ∧ f + 3 ≤ E

theorem splinePoints_fin {sp : SciPy (Ieee f e E)} (hsp : AcceptsFiniteAll sp) {kind : SplineKind} (hk : kind ≠ .unknown) (hroom : Roomy f e E kind)
    {T : List (Ieee f e E)} (hT : ∀ τ ∈ T, τ.isFinite = true) {k : List (Ieee f e E × Ieee f e E)} (three : 3 ≤ k.length)
    (hfin : ∀ p ∈ k, p.1.isFinite = true ∧ p.2.isFinite = true) (hb : ∀ p ∈ k, |p.1.val| ≤ 2 ^ (f + 1))
    (inc : k.Pairwise (fun p q => p.1.val < q.1.val))
    (hc : ∃ p q, k.head? = some p ∧ k.getLast? = some q ∧ ∀ τ ∈ T, p.1.val ≤ τ.val ∧ τ.val ≤ q.1.val) :
    ∃ t q, splinePoints sp kind T k = .ok (t, q) ∧ q.length = T.length := by
  obtain ⟨p, q, hp, hq, hcov'⟩ := hc
  have pf := (hfin p (List.mem_of_mem_head? hp)).1
  have qf := (hfin q (List.mem_of_mem_getLast? hq)).1
  have hcov : ∀ τ ∈ T, p.1 ≤ τ ∧ τ ≤ q.1 := fun τ hτ => ⟨(le_iff_val pf (hT τ hτ)).2 (hcov' τ hτ).1, (le_iff_val (hT τ hτ) qf).2 (hcov' τ hτ).2⟩
  have increasing : k.Pairwise (fun p q => p.1 < q.1) :=
    inc.imp_of_mem (fun ha hb h => (Ieee.lt_iff (hfin _ ha).1 (hfin _ hb).1).2 h)
  have hne : k ≠ [] := by rintro rfl; cases hp
  have hX0 : (k.map (·.1)) ≠ [] := by simpa using hne
  have e0 : pyGet (k.map (·.1)) 0 = .ok p.1 := by
    match k, hp with
    | _ :: _, hp => simp at hp; subst hp; exact pyGet_cons _ _
  have eL : pyGet (k.map (·.1)) (-1) = .ok q.1 := by
    rw [pyGet_last _ hX0, List.getLast_map hX0]
    rw [List.getLast?_eq_some_getLast hne] at hq
    injection hq with hq
    rw [hq]
  have efil : T.filter (fun τ => decide (p.1 ≤ τ) && decide (τ ≤ q.1)) = T := by
    rw [List.filter_eq_self]
    intro τ hτ
    simp [hcov τ hτ]
  have hacc : ∀ g : Interp (Ieee f e E), AcceptsFinite g → ∃ v, g (k.map (·.1)) (k.map (·.2)) T = some v ∧ v.length = T.length := by
    intro g hg
    refine hg (k.map (·.1)) (k.map (·.2)) T (by simpa using three) (by simp) ?_
      (by rw [List.pairwise_map]; exact increasing)
      (fun τ hτ => ⟨p.1, q.1, by simp [hp], by simp [List.getLast?_map, hq], (hcov τ hτ).1, (hcov τ hτ).2⟩)
    intro x hx
    rcases List.mem_append.1 hx with hx | hx
    · rcases List.mem_append.1 hx with hx | hx
      · obtain ⟨r, hr, rfl⟩ := List.mem_map.1 hx
        exact (hfin r hr).1
      · obtain ⟨r, hr, rfl⟩ := List.mem_map.1 hx
        exact (hfin r hr).2
    · exact hT x hx
  unfold splinePoints
  simp only [e0, eL, bind, Except.bind, efil, pure, Except.pure]
  obtain ⟨a1, a2, a3, a4, a5, a6, a7⟩ := hsp
  cases kind with
  | unknown => exact absurd rfl hk
  | akima => obtain ⟨v, h1, h2⟩ := hacc _ a1; exact ⟨_, v, by simp only [h1]; rfl, h2⟩
  | pchip => obtain ⟨v, h1, h2⟩ := hacc _ a3; exact ⟨_, v, by simp only [h1]; rfl, h2⟩
  | cubicHermite => obtain ⟨v, h1, h2⟩ := hacc _ a4; exact ⟨_, v, by simp only [h1]; rfl, h2⟩
  | slinear => obtain ⟨v, h1, h2⟩ := hacc _ a5; exact ⟨_, v, by simp only [h1]; rfl, h2⟩
  | quadratic => obtain ⟨v, h1, h2⟩ := hacc _ a6; exact ⟨_, v, by simp only [h1]; rfl, h2⟩
  | linear => obtain ⟨v, h1, h2⟩ := hacc _ a7; exact ⟨_, v, by simp only [h1]; rfl, h2⟩
  | cubic =>
    simp only []
    split
    · obtain ⟨v, h1, h2⟩ := hacc _ a2
      exact ⟨_, v, by simp only [h1]; rfl, h2⟩
    · have h3 : k.length = 3 := by omega
      obtain ⟨r1, r2, r3⟩ := hroom rfl
      match k, h3, inc, hp, hq, hfin, hb with
      | [k0, k1, k2], _, hi, hp, hq, hfin, hb =>
        simp only [List.pairwise_cons, List.mem_cons, List.not_mem_nil, or_false] at hi
        simp at hp hq
        subst hp
        subst hq
        have b0 := abs_le.1 (hb k0 (by simp))
        have b1 := abs_le.1 (hb k1 (by simp))
        have b2 := abs_le.1 (hb k2 (by simp))
        have hpow : (2 : ℝ) ^ (f + 2) = 2 * 2 ^ (f + 1) := by ring
        obtain ⟨⟨s0, s1, s2⟩, hs⟩ := slopes_ok r1 r2 r3 k0.1 k1.1 k2.1 k0.2 k1.2 k2.2 (hfin k0 (by simp)).1 (hfin k1 (by simp)).1 (hfin k2 (by simp)).1
          (hi.1 k1 (.inl rfl)) (hi.2.1 k2 rfl) (by rw [hpow]; linarith [b0.1, b1.2]) (by rw [hpow]; linarith [b1.1, b2.2])
        simp only [List.map_cons, List.map_nil]
        unfold cubicSpline3pts
        simp only [hs, bind, Except.bind, pure, Except.pure]
        refine ⟨_, _, rfl, ?_⟩
        simp only [List.length_append, List.length_map]
        have f1 := (hfin k1 (by simp)).1
        have hn : T.filter (fun τ => decide (k1.1 ≤ τ) && decide (τ ≤ k2.1)) = T.filter (fun τ => !(decide (k0.1 ≤ τ) && decide (τ < k1.1))) := by
          refine List.filter_congr fun τ hτ => ?_
          have h5 : decide (k1.1 ≤ τ) = !decide (τ < k1.1) := by
            rw [← decide_not]
            refine decide_eq_decide.2 ?_
            rw [le_iff_val f1 (hT τ hτ), Ieee.lt_iff (hT τ hτ) f1]
            exact not_lt.symm
          simp [hcov τ hτ, h5]
        rw [hn]
        exact (List.length_eq_length_filter_add _).symm

/-- Finite samples whose steps do not underflow cause no trouble. -/
theorem fine_of_resolved (hf : 1 ≤ f) (hE : f + 2 ≤ E) {sp : SciPy (Ieee f e E)} (hsp : AcceptsFiniteAll sp) {cfg : Cfg (Ieee f e E)}
    (hd : cfg.detection = .simple) (hnb : 1 ≤ cfg.nbsym) (hk : cfg.splineKind ≠ .unknown) (hroom : Roomy f e E cfg.splineKind)
    (x : List (Ieee f e E)) (h2 : 2 ≤ x.length) (hn : x.length ≤ 2 ^ f) (hx : ∀ y ∈ x, y.isFinite = true) (hr : StepsResolved x) :
    Fine sp cfg (stamps x.length) x := by
  have hff : 2 ^ f ≤ 2 ^ (f + 1) := Nat.pow_le_pow_right (by norm_num) (by omega)
  have hlen : (stamps x.length : List (Ieee f e E)).length = x.length := by simp [stamps]
  obtain ⟨a, b, hex⟩ := findExtrema_val hf (stamps x.length) x hx hr hlen
  have hI : ∀ τ ∈ (stamps x.length : List (Ieee f e E)), ∃ i : ℕ, i < x.length ∧ IsInt τ i := by
    intro τ hτ
    obtain ⟨i, hi, rfl⟩ := List.mem_map.1 hτ
    rw [List.mem_range] at hi
    exact ⟨i, hi, stamp_isInt hE i (by omega)⟩
  have hst : ∀ τ ∈ (stamps x.length : List (Ieee f e E)), τ.isFinite = true := fun τ hτ => by
    obtain ⟨i, -, h⟩ := hI τ hτ
    exact h.finite
  have hmap : (stamps x.length : List (Ieee f e E)).map val = timeArr x.length := by
    unfold stamps timeArr
    rw [List.map_map]
    refine List.map_congr_left fun i hi => ?_
    rw [List.mem_range] at hi
    simp only [Function.comp]
    rw [(stamp_isInt (e := e) hE i (by omega)).val]
    simp
  refine ⟨List.ne_nil_of_length_pos (by omega), ?_, ?_⟩
  · unfold countExt
    rw [hd, hex]
    exact ⟨_, _, rfl⟩
  · intro n z hc he
    obtain ⟨r, hr', rfl, rfl⟩ := countExt_spec hc
    rw [hd] at hr'
    obtain ⟨kmax, kmin, h1, hall, g1, g2, -⟩ := C127_knots hf hE cfg.nbsym hnb cfg x _ hx hr h2 hn (prepareTime_eq hE cfg x h2 (by omega)) r hr' (by omega)
    rw [hmap] at g1 g2
    have env : ∀ (k : List (Ieee f e E × Ieee f e E)) (pos v : List ℝ), (∀ p ∈ k, p ∈ kmax ++ kmin) →
        GoodKnots (timeArr x.length) (x.map val) pos v (k.map vals) →
        ∃ t q, splinePoints sp cfg.splineKind (stamps x.length) k = .ok (t, q) ∧ q.length = x.length := by
      intro k pos v hmem g
      obtain ⟨p, q, hp, hq, hcov⟩ := g.covers
      rw [List.head?_map, Option.map_eq_some_iff] at hp
      rw [List.getLast?_map, Option.map_eq_some_iff] at hq
      obtain ⟨p, hp, rfl⟩ := hp
      obtain ⟨q, hq, rfl⟩ := hq
      rw [← hlen]
      rw [hlen]
      have := splinePoints_fin hsp hk hroom hst (k := k) (by simpa using g.three)
        (fun p hp => ⟨(hall p (hmem p hp)).1, hx _ (hall p (hmem p hp)).2.1⟩)
        (fun p hp => by
          obtain ⟨-, -, i, hi, hi'⟩ := hall p (hmem p hp)
          rw [hi, ← Int.cast_abs, ← Int.natCast_natAbs]
          exact_mod_cast hi')
        (by have := g.increasing; rw [List.pairwise_map] at this; exact this)
        ⟨p, q, hp, hq, fun τ hτ => hcov τ.val (by rw [← hmap]; exact List.mem_map_of_mem hτ)⟩
      rwa [hlen] at this
    obtain ⟨t1, q1, s1, l1⟩ := env kmax _ _ (fun p hp => List.mem_append_left _ hp) g1
    obtain ⟨t2, q2, s2, l2⟩ := env kmin _ _ (fun p hp => List.mem_append_right _ hp) g2
    unfold siftOnce extractMaxMinSpline
    simp only [hd, hr', bind, Except.bind]
    rw [if_neg (by omega)]
    simp only [h1, s1, s2, pure, Except.pure]
    have hb : bcast (fun a b : Ieee f e E => a + b) q1 q2 = .ok (List.zipWith (fun a b => a + b) q1 q2) := by
      unfold bcast
      rw [if_pos (by omega)]
    rw [hb]
    simp only []
    unfold assignAll
    rw [if_pos (by simp [l1, l2])]
    exact ⟨_, _, _, rfl⟩

/-- **C158**: in IEEE 754 arithmetic, with simple detection, `nbsym ≥ 1`, a known kind of spline and between 2 and `2ᶠ` samples, `EMD` raises no exception as long
as every sequence it searches for extrema is finite and has no products of consecutive steps that underflow.  (The 3x3 system of the three-point spline is solved by
Cramer's rule in the model.) -/
theorem C158_no_exception (hf : 1 ≤ f) (hE : f + 2 ≤ E) (fuel : Nat) (sp : SciPy (Ieee f e E)) (hsp : AcceptsFiniteAll sp) (cfg : Cfg (Ieee f e E))
    (hd : cfg.detection = .simple) (hnb : 1 ≤ cfg.nbsym) (hk : cfg.splineKind ≠ .unknown) (hroom : Roomy f e E cfg.splineKind)
    (S : List (Ieee f e E)) (h2 : 2 ≤ S.length) (hn : S.length ≤ 2 ^ f) (T : Option (List (Ieee f e E)))
    (hT : ∀ T', T = some T' → T'.length = S.length) (m : Int)
    (hx : ∀ T', prepareTime cfg S T = .ok T' → ∀ x, Searched sp cfg T' S m [] (-1) x → (∀ y ∈ x, y.isFinite = true) ∧ StepsResolved x) :
    (∃ R, emdPure fuel sp cfg S T m = .ok R) ∨ emdPure fuel sp cfg S T m = .error .outOfFuel := by
  have hff : 2 ^ f ≤ 2 ^ (f + 1) := Nat.pow_le_pow_right (by norm_num) (by omega)
  have hp : prepareTime cfg S T = .ok (stamps S.length) := by
    have h0 := prepareTime_eq hE cfg S h2 (by omega)
    cases T with
    | none => exact h0
    | some T' =>
      unfold prepareTime at h0 ⊢
      dsimp only at h0 ⊢
      rw [if_neg (by rw [hT T' rfl]; simp), if_pos hd]
      exact h0
  have hx' := hx _ hp
  unfold emdPure emdRounds
  rw [hp]
  simp only [bind, Except.bind]
  cases hl : emdLoop sp cfg (stamps S.length) S m fuel [] (-1) with
  | ok r => exact .inl ⟨_, rfl⟩
  | error err =>
    right
    have := emdLoop_fine (by omega) fuel [] (by simp) (-1) (fun x hlen hs => by
      have := fine_of_resolved hf hE hsp hd hnb hk hroom x (by omega) (by omega) (hx' x hs).1 (hx' x hs).2
      rwa [hlen] at this) err hl
    rw [this]

/-- C158, with a limit on the number of components: `emd` returns. -/
theorem C158_returns (hf : 1 ≤ f) (hE : f + 2 ≤ E) (fuel : Nat) (sp : SciPy (Ieee f e E)) (hsp : AcceptsFiniteAll sp) (cfg : Cfg (Ieee f e E))
    (hd : cfg.detection = .simple) (hnb : 1 ≤ cfg.nbsym) (hk : cfg.splineKind ≠ .unknown) (hroom : Roomy f e E cfg.splineKind)
    (S : List (Ieee f e E)) (h2 : 2 ≤ S.length) (hn : S.length ≤ 2 ^ f) (T : Option (List (Ieee f e E)))
    (hT : ∀ T', T = some T' → T'.length = S.length) (k : Nat) (hk1 : 1 ≤ k) (hfuel : k ≤ fuel)
    (hx : ∀ T', prepareTime cfg S T = .ok T' → ∀ x, Searched sp cfg T' S k [] (-1) x → (∀ y ∈ x, y.isFinite = true) ∧ StepsResolved x) :
    ∃ R, emdPure fuel sp cfg S T k = .ok R := by
  rcases C158_no_exception hf hE fuel sp hsp cfg hd hnb hk hroom S h2 hn T hT k hx with h | h
  · exact h
  · exact absurd h (C07_max_imf_terminates fuel sp cfg S T k hk1 hfuel)

/-- Piecewise linear interpolation meets the contract. -/
theorem linSciPy_acceptsFinite : AcceptsFiniteAll (linSciPy : SciPy (Ieee f e E)) := by
  refine ⟨?_, ?_, ?_, ?_, ?_, ?_, ?_⟩ <;> intro X Y t _ _ _ _ _ <;> exact ⟨_, rfl, by simp⟩

/-- Double and single precision leave enough room for every kind of spline. -/
example (kind : SplineKind) : Roomy 52 1074 1024 kind ∧ Roomy 23 149 128 kind := ⟨fun _ => by norm_num, fun _ => by norm_num⟩

end

section
open PyEMD.Ieee

/-- A zigzag of nine samples in double precision. -/
def nineSamples : List F64 := whole [0, 2, 0, 2, 0, 2, 0, 2, 0]

/-- One subtraction of the envelope mean per component. -/
def onceCfg : Cfg F64 := { Cfg.default with FIXE := 1 }

theorem nineSamples_residue : vsub nineSamples (sumRows nineSamples.length []) = nineSamples := by decide +kernel

theorem nineSamples_sifted : okWith (fun r => decide (r.1 = whole [-1, 1, -1, 1, -1, 1, -1, 1, -1])) (siftOnce linSciPy onceCfg (stamps 9) nineSamples) = true := by
  decide +kernel

/-- A case: the zigzag and its sifted form are the only sequences searched, and they consist of whole numbers. -/
example : ∃ R, emdPure 1 linSciPy onceCfg nineSamples none (1 : Nat) = .ok R := by
  have fin : ∀ l : List ℤ, (∀ k ∈ l, k.natAbs ≤ 2 ^ 53) → (∀ y ∈ whole l, y.isFinite = true) ∧ StepsResolved (whole l) := by
    intro l hl
    have h := whole_isInt l hl
    refine ⟨fun y hy => ?_, (C126_whole_numbers _ fun y hy => ?_).1⟩
    · obtain ⟨k, hk⟩ := h y hy
      exact hk.finite
    · obtain ⟨k, hk⟩ := h y hy
      exact ⟨k, hk.val⟩
  refine C158_returns (by norm_num) (by norm_num) 1 linSciPy linSciPy_acceptsFinite onceCfg rfl (by decide) (by decide) (fun _ => by norm_num) nineSamples
    (by decide) (by rw [show nineSamples.length = 9 from rfl]; norm_num) none (by simp) 1 le_rfl le_rfl ?_
  intro T' hT x hx
  rw [prepareTime_eq (by norm_num) onceCfg nineSamples (by decide) (by rw [show nineSamples.length = 9 from rfl]; norm_num)] at hT
  injection hT with hT
  subst hT
  cases hx with
  | next _ _ h _ _ => exact absurd rfl h
  | sift hm =>
    rw [List.map_nil, nineSamples_residue] at hm
    cases hm with
    | here => exact fin _ (by decide)
    | sifted _ _ _ h =>
      have h1 := nineSamples_sifted
      change siftOnce linSciPy onceCfg (stamps 9) nineSamples = _ at h
      rw [h] at h1
      have h2 := of_decide_eq_true h1
      dsimp only at h2
      rw [h2]
      exact fin _ (by decide)
    | step h _ =>
      exfalso
      unfold siftBody at h
      simp only [bind, Except.bind, pure, Except.pure, onceCfg] at h
      repeat' split at h
      all_goals first
        | (cases h; done)
        | (injection h with h; cases h; done)
        | (simp at *; done)
        | omega

/-- `Roomy` is needed for cubic splines: in half precision the determinant for three knots 1000 apart underflows to zero.  (numpy's solver refuses half precision
altogether, with a `TypeError`.) -/
theorem C158_half_precision : errIs .valueError (spline3Slopes (lit 0 : F16) (lit 1000) (lit 2000) (lit 0) (lit 1) (lit 0)) = true := by decide +kernel

end

end EMD
end PyEMD
