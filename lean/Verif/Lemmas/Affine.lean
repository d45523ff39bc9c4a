import Verif.Lemmas.Negate
import Verif.Spec.Affine
import Verif.Spec.Interp
import Mathlib.Tactic.FieldSimp
import Mathlib.Tactic.Linarith

/-!
# Behaviour of the decomposition under increasing affine maps of the signal
-/

set_option linter.unusedSectionVars false

namespace PyEMD

/-- Both computations succeed with related values, or both fail with the same exception. -/
def RelX {β γ : Type} (R : β → γ → Prop) : PyM β → PyM γ → Prop
  | .ok a, .ok b => R a b
  | .error e, .error e' => e = e'
  | _, _ => False

theorem RelX.pure {β γ : Type} {R : β → γ → Prop} {a : β} {b : γ} (h : R a b) : RelX R (Pure.pure a) (Pure.pure b) := h

theorem RelX.of_eq {β γ : Type} {R : β → γ → Prop} {f : β → γ} {x : PyM β} {y : PyM γ} (hR : ∀ a, R a (f a)) (h : y = x.map f) :
    RelX R x y := by
  subst h
  cases x with
  | ok a => exact hR a
  | error e => rfl

theorem RelX.refl {β : Type} (x : PyM β) : RelX Eq x x := by
  cases x with
  | ok a => rfl
  | error e => rfl

theorem RelX.bind {β γ β' γ' : Type} {R : β → γ → Prop} {Q : β' → γ' → Prop} {x : PyM β} {y : PyM γ} {f : β → PyM β'} {g : γ → PyM γ'}
    (h : RelX R x y) (hf : ∀ a b, x = .ok a → y = .ok b → R a b → RelX Q (f a) (g b)) : RelX Q (x >>= f) (y >>= g) := by
  cases x with
  | ok a =>
    cases y with
    | ok b => exact hf a b rfl rfl h
    | error e => exact h.elim
  | error e =>
    cases y with
    | ok b => exact h.elim
    | error e' => exact h

theorem RelX.mono {β γ : Type} {R Q : β → γ → Prop} {x : PyM β} {y : PyM γ} (h : RelX R x y) (hq : ∀ a b, R a b → Q a b) : RelX Q x y := by
  cases x with
  | ok a =>
    cases y with
    | ok b => exact hq a b h
    | error e => exact h.elim
  | error e =>
    cases y with
    | ok b => exact h.elim
    | error e' => exact h

namespace EMD
open Spec

variable {K : Type} [Field K] [LinearOrder K] [IsStrictOrderedRing K] [FloorRing K]

/-- Affine map of an array. -/
def vaff (c b : K) (l : List K) : List K := l.map (fun x => c * x + b)
/-- Affine map of the values of knots. -/
def kaff (c b : K) (l : List (K × K)) : List (K × K) := l.map (fun p => (p.1, c * p.2 + b))

theorem vaff_length (c b : K) (l : List K) : (vaff c b l).length = l.length := by simp [vaff]

theorem aff_lt {c : K} (hc : 0 < c) (b x y : K) : c * x + b < c * y + b ↔ x < y := by
  rw [add_lt_add_iff_right, mul_lt_mul_iff_right₀ hc]

theorem vsub_vaff (c b b' : K) (x y : List K) : vsub (vaff c b x) (vaff c b' y) = vaff c (b - b') (vsub x y) := by
  simp only [vsub, vaff, List.zipWith_map, List.map_zipWith]
  congr 1
  funext x y
  ring

theorem vadd_vaff (c b b' : K) (x y : List K) : vadd (vaff c b x) (vaff c b' y) = vaff c (b + b') (vadd x y) := by
  simp only [vadd, vaff, List.zipWith_map, List.map_zipWith]
  congr 1
  funext x y
  ring

theorem sumRows_vaff (c : K) (n : Nat) (rows : List (List K)) : sumRows n (rows.map (vaff c 0)) = vaff c 0 (sumRows n rows) := by
  have key : ∀ (rows : List (List K)) (acc : List K), (rows.map (vaff c 0)).foldl vadd (vaff c 0 acc) = vaff c 0 (rows.foldl vadd acc) := by
    intro rows
    induction rows with
    | nil => intro acc; rfl
    | cons r rows ih => intro acc; simp only [List.map_cons, List.foldl_cons, vadd_vaff, add_zero, ih]
  have : (vzeros n : List K) = vaff c 0 (vzeros n) := by simp [vzeros, vaff]
  unfold sumRows
  conv_lhs => rw [this]
  exact key rows _

/-! ## Knots -/

theorem leftBound_vaff {c : K} (hc : 0 < c) (b : K) (nb : Int) (S : List K) (A B : List Int) :
    leftBound nb (vaff c b S) A B = leftBound nb S A B := by
  unfold leftBound vaff
  simp only [pyGet_map]
  have key : ∀ (i j : Int) (f : K → K → PyM Mirror), (∀ x y, f (c * x + b) (c * y + b) = f x y) →
      ((pyGet S i).map (fun x => c * x + b) >>= fun x => (pyGet S j).map (fun x => c * x + b) >>= fun y => f x y) =
      (pyGet S i >>= fun x => pyGet S j >>= fun y => f x y) := by
    intro i j f hf
    cases pyGet S i with
    | error e => rfl
    | ok x =>
      cases pyGet S j with
      | error e => rfl
      | ok y => exact hf x y
  congr 1
  funext a
  congr 1
  funext a'
  split
  · refine key _ _ (fun s0 sm => _) ?_
    intro x y
    simp only [aff_lt hc]
  · refine key _ _ (fun s0 sm => _) ?_
    intro x y
    simp only [aff_lt hc]

theorem rightBound_vaff {c : K} (hc : 0 < c) (b : K) (nb : Int) (S : List K) (A B : List Int) :
    rightBound nb (vaff c b S) A B = rightBound nb S A B := by
  unfold rightBound vaff
  simp only [pyGet_map, List.length_map]
  have key : ∀ (i j : Int) (f : K → K → PyM Mirror), (∀ x y, f (c * x + b) (c * y + b) = f x y) →
      ((pyGet S i).map (fun x => c * x + b) >>= fun x => (pyGet S j).map (fun x => c * x + b) >>= fun y => f x y) =
      (pyGet S i >>= fun x => pyGet S j >>= fun y => f x y) := by
    intro i j f hf
    cases pyGet S i with
    | error e => rfl
    | ok x =>
      cases pyGet S j with
      | error e => rfl
      | ok y => exact hf x y
  congr 1
  funext a
  congr 1
  funext a'
  split
  · refine key _ _ (fun s0 sm => _) ?_
    intro x y
    simp only [aff_lt hc]
  · refine key _ _ (fun s0 sm => _) ?_
    intro x y
    simp only [aff_lt hc]

theorem relTakeAff (c b : K) (S : List K) (idx : List Int) : RelX (fun x y => y = vaff c b x) (pyTake S idx) (pyTake (vaff c b S) idx) :=
  .of_eq (f := vaff c b) (fun _ => rfl) (pyTake_mapf _ _ _)

theorem dropDupKnots_kaff (c b : K) (l : List (K × K)) : dropDupKnots (kaff c b l) = kaff c b (dropDupKnots l) := by
  induction l with
  | nil => rfl
  | cons p l ih =>
    cases l with
    | nil => rfl
    | cons q l =>
      show (if q.1 == p.1 then dropDupKnots (kaff c b (q :: l)) else (p.1, c * p.2 + b) :: dropDupKnots (kaff c b (q :: l))) =
        kaff c b (if q.1 == p.1 then dropDupKnots (q :: l) else p :: dropDupKnots (q :: l))
      rw [ih]
      split <;> rfl

theorem zip_vaff (c b : K) (t z : List K) : t.zip (vaff c b z) = kaff c b (t.zip z) := by
  unfold vaff kaff
  rw [List.zip_map_right]
  rfl

theorem preparePointsSimple_vaff {c : K} (hc : 0 < c) (b : K) (nb : Int) (T S P Q : List K) :
    RelX (fun r r' => r' = (kaff c b r.1, kaff c b r.2)) (preparePointsSimple nb T S P Q) (preparePointsSimple nb T (vaff c b S) P Q) := by
  unfold preparePointsSimple
  simp only [vaff_length, leftBound_vaff hc, rightBound_vaff hc]
  refine (RelX.refl _).bind ?_
  rintro l _ - - rfl
  refine (RelX.refl _).bind ?_
  rintro r _ - - rfl
  refine (RelX.refl _).bind ?_
  rintro l' _ - - rfl
  refine (RelX.refl _).bind ?_
  rintro r' _ - - rfl
  refine (relTakeAff c b S _).bind ?_
  rintro z1 _ - - rfl
  refine (relTakeAff c b S _).bind ?_
  rintro z2 _ - - rfl
  refine (relTakeAff c b S _).bind ?_
  rintro z3 _ - - rfl
  refine (relTakeAff c b S _).bind ?_
  rintro z4 _ - - rfl
  refine (RelX.refl _).bind ?_
  rintro t1 _ - - rfl
  refine (RelX.refl _).bind ?_
  rintro t2 _ - - rfl
  refine (relTakeAff c b S _).bind ?_
  rintro z5 _ - - rfl
  refine (relTakeAff c b S _).bind ?_
  rintro z6 _ - - rfl
  apply RelX.pure
  have e : ∀ x y z : List K, vaff c b x ++ vaff c b y ++ vaff c b z = vaff c b (x ++ y ++ z) := by
    intro x y z; simp [vaff]
  rw [e, e, zip_vaff, zip_vaff, dropDupKnots_kaff, dropDupKnots_kaff]

/-! ## Splines -/

theorem spline3Slopes_aff (c b x0 x1 x2 y0 y1 y2 : K) : spline3Slopes x0 x1 x2 (c * y0 + b) (c * y1 + b) (c * y2 + b) =
    (spline3Slopes x0 x1 x2 y0 y1 y2).map (fun k => (c * k.1, c * k.2.1, c * k.2.2)) := by
  unfold spline3Slopes
  have h : ∀ x y : K, c * x + b - (c * y + b) = c * (x - y) := fun x y => by ring
  simp only [h]
  unfold solve3
  dsimp only
  split
  · rfl
  · simp only [Except.map, ← mul_div_assoc]
    congr 4
    · unfold det3; ring
    · unfold det3; ring
    · unfold det3; ring

theorem spline3Seg_aff (c b ya yb p q t : K) : spline3Seg (c * ya + b) (c * yb + b) (c * p) (c * q) t = c * spline3Seg ya yb p q t + b := by
  unfold spline3Seg; simp only [lit_one]; ring

theorem cubicSpline3pts_aff (c b : K) (X Y T : List K) :
    cubicSpline3pts X (vaff c b Y) T = (cubicSpline3pts X Y T).map (fun r => (r.1, vaff c b r.2)) := by
  match X, Y with
  | [x0, x1, x2], [y0, y1, y2] =>
    unfold cubicSpline3pts
    simp only [vaff, List.map_cons, List.map_nil]
    rw [spline3Slopes_aff]
    cases spline3Slopes x0 x1 x2 y0 y1 y2 with
    | error e => rfl
    | ok k =>
      obtain ⟨k0, k1, k2⟩ := k
      simp only [bind, Except.bind, Except.map, pure, Except.pure, List.map_append, List.map_map, Function.comp_def]
      simp only [← spline3Seg_aff]
      congr! 6 <;> ring
  | [], _ => rfl
  | [_], _ => rfl
  | [_, _], _ => rfl
  | _ :: _ :: _ :: _ :: _, _ => rfl
  | [_, _, _], [] => rfl
  | [_, _, _], [_] => rfl
  | [_, _, _], [_, _] => rfl
  | [_, _, _], _ :: _ :: _ :: _ :: _ => rfl

theorem ofScipy_aff {f : Interp K} (h : AffineInterp f) {c : K} (hc : 0 < c) (b : K) (X Y t : List K) :
    ofScipy (f X (vaff c b Y) t) = (ofScipy (f X Y t)).map (vaff c b) := by
  rw [show vaff c b Y = Y.map (fun y => c * y + b) from rfl, h c b hc]
  cases f X Y t <;> rfl

theorem splinePoints_aff {sp : SciPy K} (ho : AffineAll sp) {c : K} (hc : 0 < c) (b : K) (kind : SplineKind) (T : List K) (k : List (K × K)) :
    splinePoints sp kind T (kaff c b k) = (splinePoints sp kind T k).map (fun r => (r.1, vaff c b r.2)) := by
  obtain ⟨o1, o2, o3, o4, o5, o6, o7⟩ := ho
  have eX : (kaff c b k).map (·.1) = k.map (·.1) := by simp [kaff, Function.comp_def]
  have eY : (kaff c b k).map (·.2) = vaff c b (k.map (·.2)) := by simp [kaff, vaff, Function.comp_def]
  have eL : (kaff c b k).length = k.length := by simp [kaff]
  unfold splinePoints
  simp only [eX, eY, eL]
  cases pyGet (k.map (·.1)) 0 with
  | error e => rfl
  | ok x0 =>
    cases pyGet (k.map (·.1)) (-1) with
    | error e => rfl
    | ok xL =>
      show _ = _
      have fin : ∀ (f : Interp K) (t T' : List K), AffineInterp f →
          (ofScipy (f (k.map (·.1)) (vaff c b (k.map (·.2))) t) >>= fun v => pure (T', v)) =
          Except.map (fun r => (r.1, vaff c b r.2)) (ofScipy (f (k.map (·.1)) (k.map (·.2)) t) >>= fun v => (pure (T', v) : PyM (List K × List K))) := by
        intro f t T' hf
        rw [ofScipy_aff hf hc]
        cases ofScipy (f (k.map (·.1)) (k.map (·.2)) t) <;> rfl
      cases kind with
      | akima => exact fin _ _ _ o1
      | cubic =>
        simp only [bind, Except.bind]
        split
        · exact fin _ _ _ o2
        · exact cubicSpline3pts_aff _ _ _ _ _
      | pchip => exact fin _ _ _ o3
      | cubicHermite => exact fin _ _ _ o4
      | slinear => exact fin _ _ _ o5
      | quadratic => exact fin _ _ _ o6
      | linear => exact fin _ _ _ o7
      | unknown => rfl

theorem bcast_vaff (c b : K) (x y : List K) : bcast (fun x y => x + y) (vaff c b x) (vaff c b y) = (bcast (fun x y => x + y) x y).map (vaff c (b + b)) := by
  have e1 : ∀ x y : K, c * x + b + (c * y + b) = c * (x + y) + (b + b) := fun x y => by ring
  unfold bcast
  rw [vaff_length, vaff_length]
  split
  · simp only [Except.map, vaff, List.zipWith_map, List.map_zipWith, e1]
  · match x, y with
    | [x], [] => rfl
    | [x], y :: y' :: l => simp only [vaff, List.map_cons, List.map_nil, Except.map, List.map_map, Function.comp_def, e1]
    | [x], [y] => simp only [vaff, List.map_cons, List.map_nil, Except.map, List.map_map, Function.comp_def, e1]
    | [], [y] => rfl
    | x :: x' :: l, [y] => simp only [vaff, List.map_cons, List.map_nil, Except.map, List.map_map, Function.comp_def, e1]
    | [], [] => rfl
    | [], y :: y' :: l => rfl
    | x :: x' :: l, [] => rfl
    | x :: x' :: l, y :: y' :: l' => rfl

theorem assignAll_vaff (c b : K) (n : Nat) (l : List K) : assignAll n (vaff c b l) = (assignAll n l).map (vaff c b) := by
  unfold assignAll
  rw [vaff_length]
  split
  · rfl
  · match l with
    | [] => rfl
    | [x] => simp [vaff, Except.map]
    | x :: y :: l => rfl

/-- One sifting step of the transformed proto-IMF: the offset disappears. -/
theorem siftOnce_vaff {sp : SciPy K} (ho : AffineAll sp) {cfg cfg' : Cfg K} (hd : cfg.detection = .simple) (hd' : cfg'.detection = .simple)
    (hnb : cfg'.nbsym = cfg.nbsym) (hk : cfg'.splineKind = cfg.splineKind) {c : K} (hc : 0 < c) (b : K) (T x : List K) (hT : T.length = x.length) :
    RelX (fun r r' => r' = (vaff c 0 r.1, kaff c b r.2.1, kaff c b r.2.2)) (siftOnce sp cfg T x) (siftOnce sp cfg' T (vaff c b x)) := by
  unfold siftOnce extractMaxMinSpline
  obtain ⟨e, e', h, h', p1, p2, -, -⟩ := C18_affine T x hT c b hc
  rw [hd, hd', hnb, hk, h, show vaff c b x = x.map (fun x => c * x + b) from rfl, h']
  simp only [preparePoints, bind_assoc]
  refine RelX.bind (R := fun a a' => a = e ∧ a' = e') (x := .ok e) (y := .ok e') ⟨rfl, rfl⟩ ?_
  rintro a a' - - ⟨h1, h2⟩
  rw [h1, h2, p1, p2]
  by_cases hlt : e.maxPos.length + e.minPos.length < 3
  · rw [if_pos hlt, if_pos hlt]
    rfl
  · rw [if_neg hlt, if_neg hlt]
    simp only [bind_assoc]
    refine (preparePointsSimple_vaff hc b cfg.nbsym T x _ _).bind ?_
    rintro ⟨kx, kn⟩ _ - - rfl
    dsimp only
    refine (RelX.of_eq (f := fun r => (r.1, vaff c b r.2)) (R := fun r r' => r' = (r.1, vaff c b r.2)) (fun _ => rfl) (splinePoints_aff ho hc b _ _ _)).bind ?_
    rintro ⟨t1, q1⟩ _ - - rfl
    refine (RelX.of_eq (f := fun r => (r.1, vaff c b r.2)) (R := fun r r' => r' = (r.1, vaff c b r.2)) (fun _ => rfl) (splinePoints_aff ho hc b _ _ _)).bind ?_
    rintro ⟨t2, q2⟩ _ - - rfl
    simp only [pure_bind]
    refine (RelX.of_eq (f := vaff c (b + b)) (R := fun r r' => r' = vaff c (b + b) r) (fun _ => rfl) (bcast_vaff c b q1 q2)).bind ?_
    rintro s _ - - rfl
    have e : (vaff c (b + b) s).map (fun x => lit (1 / 2) * x) = vaff c b (s.map (fun x => lit (1 / 2) * x)) := by
      simp only [vaff, List.map_map]
      apply List.map_congr_left
      intro y _
      simp only [Function.comp_def, lit_half]
      ring
    rw [e, List.length_map]
    refine (RelX.of_eq (f := vaff c b) (R := fun r r' => r' = vaff c b r) (fun _ => rfl) (assignAll_vaff c b _ _)).bind ?_
    rintro mean _ - - rfl
    refine .pure ?_
    rw [show List.map (fun x => c * x + b) x = vaff c b x from rfl, vsub_vaff, sub_self]

/-! ## Counting -/

theorem zeroCrossings_scale {c : K} (hc : 0 < c) (S : List K) : zeroCrossings (vaff c 0 S) = zeroCrossings S := by
  have e1 : List.zipWith (fun a b => decide (a * b < lit 0)) (vaff c 0 S).dropLast (vaff c 0 S).tail =
      List.zipWith (fun a b => decide (a * b < lit 0)) S.dropLast S.tail := by
    unfold vaff
    rw [← List.map_dropLast, ← List.map_tail, List.zipWith_map]
    congr 1
    funext x y
    rw [lit_zero, decide_eq_decide, show (c * x + 0) * (c * y + 0) = (c * c) * (x * y) by ring]
    have hcc := mul_pos hc hc
    constructor
    · intro h
      exact neg_of_mul_neg_right h hcc.le
    · intro h
      exact mul_neg_of_pos_of_neg hcc h
  have e2 : (vaff c 0 S).map (fun s => s == lit 0) = S.map (fun s => s == lit 0) := by
    unfold vaff
    rw [List.map_map]
    apply List.map_congr_left
    intro x _
    rw [Function.comp, lit_zero, Bool.eq_iff_iff]
    simp [hc.ne']
  unfold zeroCrossings
  simp only [e1, e2]

theorem countExt_scale {cfg cfg' : Cfg K} (hd : cfg.detection = .simple) (hd' : cfg'.detection = .simple) {c : K} (hc : 0 < c)
    (T x : List K) (hT : T.length = x.length) : countExt cfg' T (vaff c 0 x) = countExt cfg T x := by
  obtain ⟨h1, h2⟩ := reported_pos_affine c 0 hc x
  unfold countExt
  rw [hd, hd']
  simp only [findExtrema]
  rw [findExtremaSimple_eq T x hT, findExtremaSimple_eq T _ (by rw [vaff_length]; exact hT)]
  simp only [vaff] at *
  simp only [h1, h2, bind, Except.bind, pure, Except.pure]
  simp only [List.length_map, show zeroCrossings (List.map (fun x => c * x + 0) x) = zeroCrossings x from zeroCrossings_scale hc x]

/-- Extrema are counted as before, whatever the offset. -/
theorem countExt_aff {cfg cfg' : Cfg K} (hd : cfg.detection = .simple) (hd' : cfg'.detection = .simple) {c : K} (hc : 0 < c) (b : K)
    (T x : List K) (hT : T.length = x.length) : RelX (fun r r' => r'.1 = r.1) (countExt cfg T x) (countExt cfg' T (vaff c b x)) := by
  obtain ⟨e, e', h, h', p1, p2, -, -⟩ := C18_affine T x hT c b hc
  unfold countExt
  rw [hd, hd', h, show vaff c b x = x.map (fun x => c * x + b) from rfl, h']
  show _ = _
  simp only [p1, p2]

end EMD
end PyEMD
