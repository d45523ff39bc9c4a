import Verif.Model.Jit
import Verif.Lemmas.Affine
import Verif.Spec.Scipy

/-!
# `JitEMD` under changes of the unit and the origin of time
-/

set_option linter.unusedSectionVars false

namespace PyEMD
namespace Jit
open EMD (Extrema Detection SplineKind Cfg Sift SiftEnd SiftStep Mirror Mirrored vaff vaff_length aff_lt relTakeAff)

variable {K : Type} [Field K] [LinearOrder K] [IsStrictOrderedRing K] [FloorRing K]

/-- Affine map of the positions of knots. -/
def kpos (c b : K) (l : List (K × K)) : List (K × K) := l.map (fun p => (c * p.1 + b, p.2))

theorem aff_le {c : K} (hc : 0 < c) (b x y : K) : c * x + b ≤ c * y + b ↔ x ≤ y := by
  rw [add_le_add_iff_right, mul_le_mul_iff_right₀ hc]

theorem aff_beq {c : K} (hc : 0 < c) (b x y : K) : (c * x + b == c * y + b) = (x == y) := by
  rw [Bool.eq_iff_iff, beq_iff_eq, beq_iff_eq, add_left_inj, mul_right_inj' hc.ne']

theorem relGet (c b : K) (T : List K) (i : Int) : RelX (fun x y => y = c * x + b) (pyGet T i) (pyGet (vaff c b T) i) :=
  .of_eq (f := fun x => c * x + b) (fun _ => rfl) (pyGet_map _ _ _)

theorem mirrorTimes_time (c b : K) (T : List K) (sym : Int) (idx : List Int) :
    RelX (fun x y => y = vaff c b x) (EMD.mirrorTimes T sym idx) (EMD.mirrorTimes (vaff c b T) sym idx) := by
  unfold EMD.mirrorTimes
  refine (relGet c b T sym).bind ?_
  rintro t _ - - rfl
  refine (relTakeAff c b T idx).bind ?_
  rintro l _ - - rfl
  apply RelX.pure
  simp only [vaff, List.map_map]
  apply List.map_congr_left
  intro x _
  simp only [Function.comp_def, lit_eq]
  push_cast
  ring

/-- Mirrored points with times under the affine map. -/
def mpos (c b : K) (m : Mirrored K) : Mirrored K := { m with tmx := vaff c b m.tmx, tmn := vaff c b m.tmn }

theorem leftMirror_time {c : K} (hc : 0 < c) (b : K) (nb : Int) (T : List K) (A B : List Int) (m : Mirror) :
    RelX (fun x y => y = mpos c b x) (EMD.leftMirror nb T A B m) (EMD.leftMirror nb (vaff c b T) A B m) := by
  unfold EMD.leftMirror
  refine (mirrorTimes_time c b T _ _).bind ?_
  rintro t1 _ - - rfl
  refine (mirrorTimes_time c b T _ _).bind ?_
  rintro t2 _ - - rfl
  refine (relGet c b t1 0).bind ?_
  rintro x1 _ - - rfl
  refine (relGet c b T 0).bind ?_
  rintro x2 _ - - rfl
  refine (relGet c b t2 0).bind ?_
  rintro x3 _ - - rfl
  simp only [aff_lt hc]
  by_cases h : x2 < x1 ∨ x2 < x3
  · rw [if_pos h, if_pos h]
    refine (RelX.refl _).bind ?_
    rintro k _ - - rfl
    generalize (if m.sym = k then _ else _ : Mirror) = m'
    split
    · rfl
    · refine (mirrorTimes_time c b T _ _).bind ?_
      rintro t3 _ - - rfl
      refine (mirrorTimes_time c b T _ _).bind ?_
      rintro t4 _ - - rfl
      exact RelX.pure rfl
  · rw [if_neg h, if_neg h]
    exact RelX.pure rfl

theorem rightMirror_time {c : K} (hc : 0 < c) (b : K) (nb : Int) (T : List K) (n : Nat) (A B : List Int) (m : Mirror) :
    RelX (fun x y => y = mpos c b x) (EMD.rightMirror nb T n A B m) (EMD.rightMirror nb (vaff c b T) n A B m) := by
  unfold EMD.rightMirror
  refine (mirrorTimes_time c b T _ _).bind ?_
  rintro t1 _ - - rfl
  refine (mirrorTimes_time c b T _ _).bind ?_
  rintro t2 _ - - rfl
  refine (relGet c b t1 _).bind ?_
  rintro x1 _ - - rfl
  refine (relGet c b T _).bind ?_
  rintro x2 _ - - rfl
  refine (relGet c b t2 _).bind ?_
  rintro x3 _ - - rfl
  simp only [aff_lt hc]
  by_cases h : x1 < x2 ∨ x3 < x2
  · rw [if_pos h, if_pos h]
    refine (RelX.refl _).bind ?_
    rintro k _ - - rfl
    generalize (if m.sym = k then _ else _ : Mirror) = m'
    split
    · rfl
    · refine (mirrorTimes_time c b T _ _).bind ?_
      rintro t3 _ - - rfl
      refine (mirrorTimes_time c b T _ _).bind ?_
      rintro t4 _ - - rfl
      exact RelX.pure rfl
  · rw [if_neg h, if_neg h]
    exact RelX.pure rfl

theorem keepAfter_time {c : K} (hc : 0 < c) (b : K) (p : K × K) (l : List (K × K)) :
    keepAfter (c * p.1 + b, p.2) (kpos c b l) = kpos c b (keepAfter p l) := by
  induction l generalizing p with
  | nil => rfl
  | cons q l ih =>
    show (if c * q.1 + b == c * p.1 + b then keepAfter (c * q.1 + b, q.2) (kpos c b l) else (c * q.1 + b, q.2) :: keepAfter (c * q.1 + b, q.2) (kpos c b l)) =
      kpos c b (if q.1 == p.1 then keepAfter q l else q :: keepAfter q l)
    rw [ih, aff_beq hc]
    split <;> rfl

theorem dropDup_time {c : K} (hc : 0 < c) (b : K) (l : List (K × K)) : dropDup (kpos c b l) = kpos c b (dropDup l) := by
  cases l with
  | nil => rfl
  | cons p l =>
    show (c * p.1 + b, p.2) :: keepAfter (c * p.1 + b, p.2) (kpos c b l) = _
    rw [keepAfter_time hc]
    rfl

theorem zip_time (c b : K) (t z : List K) : (vaff c b t).zip z = kpos c b (t.zip z) := by
  unfold vaff kpos
  rw [List.zip_map_left]
  rfl

theorem preparePointsSimple_time {c : K} (hc : 0 < c) (b : K) (nb : Int) (T S P Q : List K) :
    RelX (fun r r' => r' = (kpos c b r.1, kpos c b r.2)) (preparePointsSimple nb T S P Q) (preparePointsSimple nb (vaff c b T) S P Q) := by
  unfold preparePointsSimple
  dsimp only
  refine (RelX.refl _).bind ?_
  rintro l _ - - rfl
  refine (RelX.refl _).bind ?_
  rintro r _ - - rfl
  refine (leftMirror_time hc b nb T _ _ _).bind ?_
  rintro l' _ - - rfl
  refine (rightMirror_time hc b nb T _ _ _ _).bind ?_
  rintro r' _ - - rfl
  refine (RelX.refl _).bind ?_
  rintro z1 _ - - rfl
  refine (RelX.refl _).bind ?_
  rintro z2 _ - - rfl
  refine (RelX.refl _).bind ?_
  rintro z3 _ - - rfl
  refine (RelX.refl _).bind ?_
  rintro z4 _ - - rfl
  refine (relTakeAff c b T _).bind ?_
  rintro t1 _ - - rfl
  refine (relTakeAff c b T _).bind ?_
  rintro t2 _ - - rfl
  refine (RelX.refl _).bind ?_
  rintro z5 _ - - rfl
  refine (RelX.refl _).bind ?_
  rintro z6 _ - - rfl
  apply RelX.pure
  have e : ∀ x y z : List K, vaff c b x ++ (vaff c b y ++ vaff c b z) = vaff c b (x ++ (y ++ z)) := by
    intro x y z; simp [vaff]
  simp only [mpos]
  rw [e, e, zip_time, zip_time, dropDup_time hc, dropDup_time hc]

/-! ## Splines -/

theorem spline3Slopes_time {c : K} (hc : 0 < c) (b x0 x1 x2 y0 y1 y2 : K) :
    spline3Slopes (c * x0 + b) (c * x1 + b) (c * x2 + b) y0 y1 y2 =
      (spline3Slopes x0 x1 x2 y0 y1 y2).map (fun k => (k.1 / c, k.2.1 / c, k.2.2 / c)) := by
  have hc0 : c ≠ 0 := hc.ne'
  unfold spline3Slopes
  have h : ∀ x y : K, c * x + b - (c * y + b) = c * (x - y) := fun x y => by ring
  have hi : ∀ x : K, lit 1 / (c * x) = c⁻¹ * (lit 1 / x) := fun x => by rw [lit_one, one_div, one_div, mul_inv]
  simp only [h, hi]
  generalize lit 1 / (x1 - x0) = u
  generalize lit 1 / (x2 - x1) = v
  unfold solve3
  dsimp only
  have hD : ∀ a1 a2 a3 a4 a5 a6 a7 a8 a9 : K, det3 (c⁻¹ * a1) (c⁻¹ * a2) (c⁻¹ * a3) (c⁻¹ * a4) (c⁻¹ * a5) (c⁻¹ * a6) (c⁻¹ * a7) (c⁻¹ * a8) (c⁻¹ * a9) =
      c⁻¹ * c⁻¹ * c⁻¹ * det3 a1 a2 a3 a4 a5 a6 a7 a8 a9 := by
    intros; unfold det3; ring
  have e1 : ∀ k x : K, k * (c⁻¹ * x) = c⁻¹ * (k * x) := fun k x => by ring
  have e2 : ∀ x y : K, c⁻¹ * x + c⁻¹ * y = c⁻¹ * (x + y) := fun x y => by ring
  have e0 : (lit 0 : K) = c⁻¹ * lit 0 := by rw [lit_zero, mul_zero]
  have eD : det3 (lit 2 * (c⁻¹ * u)) (c⁻¹ * u) (lit 0) (c⁻¹ * u) (lit 2 * (c⁻¹ * u + c⁻¹ * v)) (c⁻¹ * v) (lit 0) (c⁻¹ * v) (lit 2 * (c⁻¹ * v)) =
      c⁻¹ * c⁻¹ * c⁻¹ * det3 (lit 2 * u) u (lit 0) u (lit 2 * (u + v)) v (lit 0) v (lit 2 * v) := by
    unfold det3; rw [lit_zero]; ring
  rw [eD]
  have hz : (c⁻¹ * c⁻¹ * c⁻¹ * det3 (lit 2 * u) u (lit 0) u (lit 2 * (u + v)) v (lit 0) v (lit 2 * v) == lit 0) =
      (det3 (lit 2 * u) u (lit 0) u (lit 2 * (u + v)) v (lit 0) v (lit 2 * v) == lit 0) := by
    rw [Bool.eq_iff_iff, beq_iff_eq, beq_iff_eq, lit_zero, mul_eq_zero]
    simp [hc0]
  rw [hz]
  split
  · rfl
  · simp only [Except.map]
    have key : ∀ n n' D : K, n' = c⁻¹ * c⁻¹ * c⁻¹ * c⁻¹ * n → n' / (c⁻¹ * c⁻¹ * c⁻¹ * D) = n / D / c := by
      intro n n' D hn
      rw [hn]
      by_cases hD : D = 0
      · simp [hD]
      · field_simp
    congr 1
    refine Prod.ext ?_ (Prod.ext ?_ ?_)
    all_goals
      refine key _ _ _ ?_
      unfold det3
      rw [lit_zero]
      ring

theorem filter_time {c : K} (hc : 0 < c) (b x y : K) (T : List K) :
    (vaff c b T).filter (fun τ => decide (c * x + b ≤ τ) && decide (τ ≤ c * y + b)) =
      vaff c b (T.filter (fun τ => decide (x ≤ τ) && decide (τ ≤ y))) := by
  unfold vaff
  rw [List.filter_map]
  congr 1
  apply List.filter_congr
  intro τ _
  simp only [Function.comp_def, aff_le hc]

theorem filter_time' {c : K} (hc : 0 < c) (b x y : K) (T : List K) :
    (vaff c b T).filter (fun τ => decide (c * x + b ≤ τ) && decide (τ < c * y + b)) =
      vaff c b (T.filter (fun τ => decide (x ≤ τ) && decide (τ < y))) := by
  unfold vaff
  rw [List.filter_map]
  congr 1
  apply List.filter_congr
  intro τ _
  simp only [Function.comp_def, aff_le hc, aff_lt hc]

theorem cubicSpline3pts_time {c : K} (hc : 0 < c) (b : K) (X Y T : List K) :
    cubicSpline3pts (vaff c b X) Y (vaff c b T) = (cubicSpline3pts X Y T).map (fun r => (vaff c b r.1, r.2)) := by
  have hc0 : c ≠ 0 := hc.ne'
  match X, Y with
  | [x0, x1, x2], [y0, y1, y2] =>
    unfold cubicSpline3pts
    simp only [show vaff c b [x0, x1, x2] = [c * x0 + b, c * x1 + b, c * x2 + b] from rfl]
    rw [spline3Slopes_time hc]
    cases spline3Slopes x0 x1 x2 y0 y1 y2 with
    | error e => rfl
    | ok k =>
      obtain ⟨k0, k1, k2⟩ := k
      simp only [bind, Except.bind, Except.map, pure, Except.pure, filter_time hc, filter_time' hc]
      simp only [vaff, List.map_map, Function.comp_def]
      have e1 : ∀ k x y : K, k / c * (c * x + b - (c * y + b)) = k * (x - y) := fun k x y => by field_simp; ring
      have e2 : ∀ k x y : K, -(k / c) * (c * x + b - (c * y + b)) = -k * (x - y) := fun k x y => by field_simp; ring
      have e3 : ∀ τ x y : K, (c * τ + b - (c * x + b)) / (c * y + b - (c * x + b)) = (τ - x) / (y - x) := by
        intro τ x y
        rw [show c * τ + b - (c * x + b) = c * (τ - x) by ring, show c * y + b - (c * x + b) = c * (y - x) by ring, mul_div_mul_left _ _ hc0]
      simp only [e1, e2, e3]
  | [], _ => rfl
  | [_], _ => rfl
  | [_, _], _ => rfl
  | _ :: _ :: _ :: _ :: _, _ => rfl
  | [_, _, _], [] => rfl
  | [_, _, _], [_] => rfl
  | [_, _, _], [_, _] => rfl
  | [_, _, _], _ :: _ :: _ :: _ :: _ => rfl

/-- The interpolators that `JitEMD` calls depend on neither unit nor origin of time. -/
def TimeFreeAll (sp : SciPy K) : Prop :=
  Spec.TimeFree sp.akima ∧ Spec.TimeFree sp.cubic ∧ Spec.TimeFree sp.slinear ∧ Spec.TimeFree sp.quadratic ∧
    Spec.TimeFree sp.linear

theorem splinePoints_time {sp : SciPy K} (hsp : TimeFreeAll sp) {c : K} (hc : 0 < c) (b : K) (kind : SplineKind) (T : List K) (k : List (K × K)) :
    RelX (fun r r' => r'.2 = r.2) (splinePoints sp kind T k) (splinePoints sp kind (vaff c b T) (kpos c b k)) := by
  obtain ⟨s1, s2, s3, s4, s5⟩ := hsp
  have eX : (kpos c b k).map (·.1) = vaff c b (k.map (·.1)) := by simp [kpos, vaff, Function.comp_def]
  have eY : (kpos c b k).map (·.2) = k.map (·.2) := by simp [kpos, Function.comp_def]
  have eL : (kpos c b k).length = k.length := by simp [kpos]
  unfold splinePoints
  simp only [eX, eY, eL]
  refine (relGet c b _ 0).bind ?_
  rintro x0 _ - - rfl
  refine (relGet c b _ (-1)).bind ?_
  rintro xL _ - - rfl
  simp only [filter_time hc]
  have key : ∀ {f : Interp K} (t t' : List K), Spec.TimeFree f →
      RelX (fun r r' : List K × List K => r'.2 = r.2)
        (ofScipy (f (k.map (·.1)) (k.map (·.2)) (T.filter (fun τ => decide (x0 ≤ τ) && decide (τ ≤ xL)))) >>= fun q => Pure.pure (t, q))
        (ofScipy (f (vaff c b (k.map (·.1))) (k.map (·.2)) (vaff c b (T.filter (fun τ => decide (x0 ≤ τ) && decide (τ ≤ xL))))) >>= fun q => Pure.pure (t', q)) := by
    intro f t t' hf
    have e : f (vaff c b (k.map (·.1))) (k.map (·.2)) (vaff c b (T.filter (fun τ => decide (x0 ≤ τ) && decide (τ ≤ xL)))) =
        f (k.map (·.1)) (k.map (·.2)) (T.filter (fun τ => decide (x0 ≤ τ) && decide (τ ≤ xL))) := hf c b hc _ _ _
    rw [e]
    refine (RelX.refl _).bind ?_
    rintro q _ - - rfl
    exact RelX.pure rfl
  cases kind with
  | akima => exact key _ _ s1
  | cubic =>
    dsimp only
    split
    · exact key _ _ s2
    · exact .of_eq (f := fun r : List K × List K => (vaff c b r.1, r.2)) (fun _ => rfl) (cubicSpline3pts_time hc b _ _ _)
  | slinear => exact key _ _ s3
  | quadratic => exact key _ _ s4
  | linear => exact key _ _ s5
  | pchip => rfl
  | cubicHermite => rfl
  | unknown => rfl

/-! ## Sifting -/

theorem extract_time {c : K} (hc : 0 < c) (b : K) (nb : Int) (T S : List K) :
    RelX (fun r r' => r' = r.map (fun p => (kpos c b p.1, kpos c b p.2))) (extractMaxMinExtrema .simple nb T S)
      (extractMaxMinExtrema .simple nb (vaff c b T) S) := by
  unfold extractMaxMinExtrema findExtrema preparePoints
  refine (RelX.refl _).bind ?_
  rintro e _ - - rfl
  split
  · exact RelX.pure rfl
  · refine (preparePointsSimple_time hc b nb T S _ _).bind ?_
    rintro r _ - - rfl
    exact RelX.pure rfl

theorem siftOnce_time {sp : SciPy K} (hsp : TimeFreeAll sp) {c : K} (hc : 0 < c) (b : K) (cfg : Cfg K) (hd : cfg.detection = .simple) (T x : List K) :
    RelX (fun r r' => r' = (r.1, kpos c b r.2.1, kpos c b r.2.2)) (siftOnce sp cfg T x) (siftOnce sp cfg (vaff c b T) x) := by
  unfold siftOnce
  rw [hd]
  refine (extract_time hc b cfg.nbsym T x).bind ?_
  rintro r _ - - rfl
  cases r with
  | none => rfl
  | some p =>
    obtain ⟨eMax, eMin⟩ := p
    dsimp only [Option.map_some]
    refine (splinePoints_time hsp hc b cfg.splineKind T eMax).bind ?_
    rintro ⟨_, u⟩ ⟨_, u'⟩ - - h
    cases h
    refine (splinePoints_time hsp hc b cfg.splineKind T eMin).bind ?_
    rintro ⟨_, v⟩ ⟨_, v'⟩ - - h
    cases h
    refine (RelX.refl _).bind ?_
    rintro s _ - - rfl
    refine (RelX.refl _).bind ?_
    rintro s' _ - - rfl
    exact RelX.pure rfl

theorem checkImf_time (c b : K) (cfg : Cfg K) (x y : List K) (p q : List (K × K)) : checkImf cfg x y (kpos c b p) (kpos c b q) = checkImf cfg x y p q := by
  unfold checkImf kpos
  simp only [List.filter_map, List.length_map, Function.comp_def]

theorem countExt_time (cfg : Cfg K) (hd : cfg.detection = .simple) (T T' x : List K) : countExt cfg T x = countExt cfg T' x := by
  unfold countExt
  rw [hd]
  rfl

theorem siftBody_time {sp : SciPy K} (hsp : TimeFreeAll sp) {c : K} (hc : 0 < c) (b : K) (cfg : Cfg K) (hd : cfg.detection = .simple) (T : List K)
    (s : Sift K) : siftBody sp cfg (vaff c b T) s = siftBody sp cfg T s := by
  unfold siftBody
  simp only [countExt_time cfg hd (vaff c b T) T]
  split
  · rfl
  · cases countExt cfg T s.imf with
    | error e => rfl
    | ok ez =>
      obtain ⟨e, z⟩ := ez
      simp only [bind, Except.bind]
      split
      · have h := siftOnce_time hsp hc b cfg hd T s.imf
        cases h1 : siftOnce sp cfg T s.imf with
        | error e =>
          cases h2 : siftOnce sp cfg (vaff c b T) s.imf with
          | error e' => rw [h1, h2] at h; cases h; rfl
          | ok r => rw [h1, h2] at h; exact h.elim
        | ok r =>
          cases h2 : siftOnce sp cfg (vaff c b T) s.imf with
          | error e' => rw [h1, h2] at h; exact h.elim
          | ok r' =>
            rw [h1, h2] at h
            obtain ⟨x, p, q⟩ := r
            cases h
            simp only [checkImf_time]
      · rfl

theorem siftLoop_time {sp : SciPy K} (hsp : TimeFreeAll sp) {c : K} (hc : 0 < c) (b : K) (cfg : Cfg K) (hd : cfg.detection = .simple) (T : List K)
    (fuel : Nat) (s : Sift K) : siftLoop sp cfg (vaff c b T) fuel s = siftLoop sp cfg T fuel s := by
  induction fuel generalizing s with
  | zero => rfl
  | succ fuel ih =>
    unfold siftLoop
    rw [siftBody_time hsp hc b cfg hd T]
    congr 1
    funext r
    cases r with
    | brk s' why => rfl
    | cont s' => exact ih s'

theorem emdLoop_time {sp : SciPy K} (hsp : TimeFreeAll sp) {c : K} (hc : 0 < c) (b : K) (cfg : Cfg K) (hd : cfg.detection = .simple) (T S : List K)
    (mi : Int) (fuel : Nat) (IMF : List (List K)) (e : Int) : emdLoop sp cfg (vaff c b T) S mi fuel IMF e = emdLoop sp cfg T S mi fuel IMF e := by
  induction fuel generalizing IMF e with
  | zero => rfl
  | succ fuel ih =>
    unfold emdLoop emdRound
    dsimp only
    rw [siftLoop_time hsp hc b cfg hd T]
    simp only [ih]

theorem emd_time {sp : SciPy K} (hsp : TimeFreeAll sp) {c : K} (hc : 0 < c) (b : K) (cfg : Cfg K) (hd : cfg.detection = .simple) (S T : List K)
    (mi : Int) (fuel : Nat) : emd fuel sp cfg S (vaff c b T) mi = emd fuel sp cfg S T mi := by
  unfold emd
  rw [vaff_length, emdLoop_time hsp hc b cfg hd T]

end Jit
end PyEMD
